#!/usr/bin/env python3
"""Write AXIOMS.md: the axioms each theorem of MANIFEST.json depends on (run after 'lake build')."""
import json,subprocess,re,collections
M=json.load(open('/verif/MANIFEST.json'))
names=[]
for c in M['claims']:
    for t in c['theorems']:
        if t not in names: names.append(t)
open('/tmp/ax.lean','w').write('import Verif\n'+''.join(f'#print axioms {n}\n' for n in names))
out=subprocess.run(['lake','env','lean','/tmp/ax.lean'],cwd='/verif/lean',capture_output=True,text=True).stdout
out=re.sub(r'\n\s+',' ',out)
dep={}
for m in re.finditer(r"'([^']+)' depends on axioms: \[([^\]]*)\]",out): dep[m[1]]=tuple(sorted(x.strip() for x in m[2].split(',')))
for m in re.finditer(r"'([^']+)' does not depend on any axioms",out): dep[m[1]]=()
miss=[n for n in names if n not in dep]
g=collections.defaultdict(list)
for n in names:
    if n in dep: g[dep[n]].append(n)
with open('/verif/AXIOMS.md','w') as f:
    f.write('# Axioms of each theorem in MANIFEST.json\n\nOutput of `#print axioms` (tools/axioms.py), grouped.\n')
    for k in sorted(g):
        f.write(f"\n## {', '.join(k) or 'none'} ({len(g[k])} theorems)\n\n"+', '.join(x.replace('SW.','') for x in g[k])+'\n')
print('missing',miss,{k:len(v) for k,v in g.items()})
