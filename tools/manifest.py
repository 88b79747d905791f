import json,re,glob,sys
# notes per property
N=json.load(open('/verif/tools/notes.json'))
names={}
for f in sorted(glob.glob('/verif/lean/Verif/Props/*.lean')):
    for m in re.finditer(r'^theorem ((C\d+)_\w+)',open(f).read(),re.M):
        names.setdefault(m.group(2),[]).append('Verif.Props.'+m.group(1))
props=[json.loads(l)['id'] for l in open('/verif/properties.jsonl')]
claims=[]
for p in props:
    st,note=N.get(p,["todo",""])
    if st=="todo": continue
    claims.append({"property":p,"status":st,"theorems":names.get(p,[]),"note":note})
json.dump({"claims":claims},open('/verif/MANIFEST.json','w'),indent=1)
print([c['property'] for c in claims], [p for p in names if p not in N])
