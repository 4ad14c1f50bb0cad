#!/usr/bin/env python3
"""Fills section 7 of DESIGN.md with the axioms of every theorem named in MANIFEST.json."""
import json, re, subprocess, pathlib, tempfile
root = pathlib.Path(__file__).resolve().parent.parent
ths = [t for c in json.loads((root / "MANIFEST.json").read_text())["claims"] for t in c["theorems"]]
with tempfile.NamedTemporaryFile("w", suffix=".lean", delete=False) as f:
    f.write("import Verif\n" + "\n".join(f"#print axioms {t}" for t in ths) + "\n")
out = subprocess.run(["lake", "env", "lean", f.name], cwd=root / "lean", capture_output=True, text=True).stdout
out = out.replace("\n ", " ")
groups = {}
for l in out.splitlines():
    m = re.match(r"'(\S+)' (?:depends on axioms: \[(.*)\]|does not depend on any axioms)", l)
    if m: groups.setdefault(m.group(2) or "none", []).append(m.group(1).replace("Finmod.", ""))
assert sum(map(len, groups.values())) == len(ths), (sum(map(len, groups.values())), len(ths))
assert set(", ".join(groups).split(", ")) <= {"none", "propext", "Classical.choice", "Quot.sound"}, groups.keys()
text = "<!-- axioms -->\n"
for k in sorted(groups):
    text += f"\n**{k}** ({len(groups[k])} theorems): " + ", ".join(f"`{t}`" for t in groups[k]) + ".\n"
d = root / "DESIGN.md"
s = d.read_text()
d.write_text(re.sub(r"<!-- axioms -->.*<!-- end axioms -->", lambda _: text + "<!-- end axioms -->", s, flags=re.S))
print({k: len(v) for k, v in groups.items()})
