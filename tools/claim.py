#!/usr/bin/env python3
"""usage: claim.py C27 proved "note" thm1 thm2 ...   (replaces the claim)"""
import json,sys
p='/verif/MANIFEST.json'
m=json.load(open(p))
pid,st,note,*th=sys.argv[1:]
th=[t if t.startswith('Keyd.') else 'Keyd.'+t for t in th]
m['claims']=[c for c in m['claims'] if c['property']!=pid]+[{"property":pid,"status":st,"theorems":th,"note":note}]
m['claims'].sort(key=lambda c:c['property'])
open(p,'w').write('{"claims": [\n'+',\n'.join(json.dumps(c) for c in m['claims'])+'\n]}\n')
