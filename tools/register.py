#!/usr/bin/env python3
"""Append a property: register.py FILE, where FILE is JSON {property, row, note?}."""
import json,re,sys
d=json.load(open(sys.argv[1]))
p=d['property']
with open('/verif/properties.jsonl','a') as f: f.write(json.dumps(p,ensure_ascii=False)+'\n')
s=open('/verif/DESIGN.md').read().split('\n')
i=max(k for k,l in enumerate(s) if re.match(r'\| C\d+ \|',l))
s.insert(i+1,'| %s | %s |'%(p['id'],d['row']))
open('/verif/DESIGN.md','w').write('\n'.join(s))
if d.get('note') or d.get('status'):
    n=json.load(open('/verif/tools/notes.json'))
    n[p['id']]={k:d[k] for k in ('note','status') if d.get(k)}
    json.dump(n,open('/verif/tools/notes.json','w'),indent=1,ensure_ascii=False)
