"""Merge a JSON object from stdin into notes.json."""
import json, sys, os
p = os.path.join(os.path.dirname(__file__), 'notes.json')
d = json.load(open(p)); d.update(json.load(sys.stdin))
d = dict(sorted(d.items(), key=lambda kv: int(kv[0][1:])))
open(p, 'w').write('{\n' + ',\n'.join(json.dumps(k) + ': ' + json.dumps(v) for k, v in d.items()) + '\n}\n')
