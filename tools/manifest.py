import json,re,glob
# status/notes per property; theorems are collected from the Props files by the Cxx_ prefix.
props=[json.loads(l) for l in open('/verif/properties.jsonl')]
names={}
for f in sorted(glob.glob('/verif/lean/Verif/Props/*.lean')):
    s=open(f).read()
    for m in re.finditer(r'^theorem (C(\d\d+)_\S+)',s,re.M):
        names.setdefault('C'+m.group(2),[]).append('Verif.Props.'+m.group(1))
notes=json.load(open('/tmp/work/notes.json'))
claims=[]
for p in props:
    i=p['id']
    if i in names:
        st,note=notes.get(i,['proved',''])
        claims.append({"property":i,"status":st,"theorems":names[i],"note":note})
    elif i in notes and notes[i][0]=='not_applicable':
        claims.append({"property":i,"status":"not_applicable","theorems":[],"note":notes[i][1]})
json.dump({"claims":claims},open('/verif/MANIFEST.json','w'),indent=1,ensure_ascii=False)
print(len(claims), [p['id'] for p in props if p['id'] not in names])
