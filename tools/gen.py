import json, sys, os
sys.path.insert(0, os.path.dirname(__file__))
import props_a, props_b
try:
    import props_c
except ImportError: pass
from props_a import PROPS
try:
    from manifest_src import CLAIMS
except ImportError:
    CLAIMS = {}
root=os.path.join(os.path.dirname(__file__),"..")
ids=[p["id"] for p in PROPS]; assert len(set(ids))==len(ids)
with open(root+"/properties.jsonl","w") as f:
    for p in PROPS:
        f.write(json.dumps({k:v for k,v in p.items() if k!="design"})+"\n")
import re, glob
FULL={}
for fn in glob.glob(root+"/lean/Verif/**/*.lean",recursive=True):
    stack=[]
    for l in open(fn):
        m=re.match(r"namespace (\S+)",l)
        if m: stack.append(m.group(1)); continue
        m=re.match(r"end (\S+)",l)
        if m and stack and stack[-1]==m.group(1): stack.pop(); continue
        m=re.match(r"theorem (\S+)",l)
        if m: FULL.setdefault(m.group(1).rstrip(":"),[]).append(".".join(stack+[m.group(1).rstrip(":")]))
def exact(n):
    c=FULL.get(n.split(".")[-1],[])
    c=[x for x in c if x.endswith("."+n.removeprefix("SW."))] or c
    assert len(c)==1,(n,c)
    return c[0]
claims=[]
for p in PROPS:
    c=CLAIMS.get(p["id"])
    if c: claims.append(dict(property=p["id"],status=c[0],theorems=[exact(n) for n in c[1]],note=c[2]))
json.dump({"claims":claims},open(root+"/MANIFEST.json","w"),indent=1)
d=open(root+"/DESIGN.md").read()
a,b="<!-- TABLE -->","<!-- /TABLE -->"
rows=["| id | property | model and proof |","|---|---|---|"]
for p in PROPS:
    rows.append(f"| {p['id']} | {p['title']} | {p['design']} |".replace("\n"," "))
i=d.index(a)+len(a); j=d.index(b)
d=d[:i]+"\n"+"\n".join(rows)+"\n"+d[j:]
open(root+"/DESIGN.md","w").write(d)
missing=[p["id"] for p in PROPS if p["id"] not in CLAIMS]
print(len(PROPS),"properties;",len(claims),"claims; missing:",missing)
