import json,subprocess,re,collections
m=json.load(open('/verif/MANIFEST.json'))
ths=[t for c in m['claims'] for t in c['theorems']]
open('/tmp/ax.lean','w').write('import Verif\n'+'\n'.join('#print axioms '+t for t in ths)+'\n')
r=subprocess.run('cd /verif/lean && timeout 900 lake env lean /tmp/ax.lean',shell=True,capture_output=True,text=True).stdout
r=re.sub(r'\n\s+',' ',r)
g=collections.defaultdict(list)
for l in r.split('\n'):
    q=re.match(r"'(\S+)' depends on axioms: \[(.*)\]",l)
    if q: g[tuple(sorted(q[2].split(', ')))].append(q[1]); continue
    q=re.match(r"'(\S+)' does not depend",l)
    if q: g[()].append(q[1])
    elif l.strip(): print(l[:200])
for k,v in g.items(): print(k,len(v))
p='/verif/DESIGN.md'
s=open(p).read()
if '\n## 6.' in s: s=s[:s.index('\n## 6.')]
s+='\n## 6. Axioms per theorem\n\nProduced with `#print axioms` on every theorem of MANIFEST.json.\n'
for k,v in sorted(g.items(),key=lambda x:len(x[0])):
    s+='\n* '+(', '.join('`%s`'%a for a in k) if k else 'no axioms')+': '+', '.join(sorted(set(t.replace('Keyd.','') for t in v)))+'.\n'
open(p,'w').write(s)
