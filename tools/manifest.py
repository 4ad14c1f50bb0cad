#!/usr/bin/env python3
"""Writes MANIFEST.json from the theorem names in lean/Verif/Props (prefix Cnn_).
A property with a `_partial` theorem is partial; NOTES adds one line per property."""
import json, re, pathlib
root = pathlib.Path(__file__).resolve().parent.parent
notes = json.loads((root / "tools" / "notes.json").read_text())
ids = [json.loads(l)["id"] for l in (root / "properties.jsonl").read_text().splitlines() if l.strip()]
found = {}
for f in sorted((root / "lean" / "Verif" / "Props").glob("*.lean")):
    ns = []
    for line in f.read_text().splitlines():
        m = re.match(r"namespace\s+(\S+)", line)
        if m: ns.append(m.group(1))
        m = re.match(r"end\s+(\S+)", line)
        if m and ns and ns[-1] == m.group(1): ns.pop()
        m = re.match(r"theorem\s+((C\d+)_\w+)", line)
        if m: found.setdefault(m.group(2), []).append(".".join(ns + [m.group(1)]))
claims = []
for i in ids:
    if i in found:
        st = "partial" if any(t.endswith("_partial") for t in found[i]) else "proved"
        claims.append({"property": i, "status": st, "theorems": found[i], "note": notes.get(i, "")})
    elif i in notes:
        claims.append({"property": i, "status": "not_applicable", "theorems": [], "note": notes[i]})
(root / "MANIFEST.json").write_text(json.dumps({"claims": claims}, indent=1) + "\n")
bad = [i for i in found if i not in ids]
print(len(claims), "claims;", "missing:", [i for i in ids if i not in found], "unknown:", bad)
