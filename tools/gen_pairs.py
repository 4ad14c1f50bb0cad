"""Generate lean/Verif/Model/PairMappings.lean from /repo/market/pair_mappings.go."""
import re, os
src = open('/repo/market/pair_mappings.go').read().split('\n')
pat = re.compile(r'\t"([^"\\]*)":\s*\{Base: Asset\{Symbol: "([^"\\]*)"\}, Quote: Asset\{Symbol: "([^"\\]*)"\}\},$')
assert src[2] == 'var PairMappings = map[string]Pair{' and src[1954] == '}', (src[2], src[1954])
rows = [pat.match(l).groups() for l in src[3:1954]]
assert len(rows) == 1951
out = ['''import Verif.Model.Position

/-!
# Model of `market/pair_mappings.go`

Generated by `tools/gen_pairs.py`, one entry per source line 4-1954, in source order:
key, base symbol, quote symbol. All other fields of the assets are empty.
-/

namespace Finmod
''']
names = []
step = 200
for i in range(0, len(rows), step):
    n = 'pairTable%d' % (i // step)
    names.append(n)
    out.append('/-- market/pair_mappings.go:%d-%d -/' % (4 + i, 3 + min(i + step, len(rows))))
    out.append('def %s : List (String × String × String) := [' % n)
    chunk = ['("%s", "%s", "%s")' % r for r in rows[i:i + step]]
    lines = [', '.join(chunk[j:j + 3]) for j in range(0, len(chunk), 3)]
    out.append('  ' + ',\n  '.join(lines) + ']\n')
out.append('''/-- market/pair_mappings.go:3-1955, the literal in source order. -/
def pairTable : List (String × String × String) :=
  ''' + ' ++ '.join(names) + '''

/-- An asset with only a symbol. -/
def symbolAsset (s : String) : Asset := ⟨"", s, ""⟩

/-- market/pair_mappings.go:3 `PairMappings[k]`; `none` is a missing key. -/
def pairMapping (k : String) : Option Pair :=
  (pairTable.find? (fun e => e.1 = k)).map (fun e => ⟨symbolAsset e.2.1, symbolAsset e.2.2⟩)

end Finmod''')
open(os.path.join(os.path.dirname(__file__), '../lean/Verif/Model/PairMappings.lean'), 'w').write('\n'.join(out) + '\n')
