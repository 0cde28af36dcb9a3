import json,re,sys,glob
a,b=int(sys.argv[1]),int(sys.argv[2])
props={json.loads(l)['id']:json.loads(l) for l in open('/verif/properties.jsonl')}
man={c['property']:c for c in json.load(open('/verif/MANIFEST.json'))['claims']}
src={}
for f in glob.glob('/verif/lean/Verif/**/*.lean',recursive=True):
    s=open(f).read()
    for m in re.finditer(r'^((?:/--(?:(?!-/).)*-/\s*\n)?)((?:private )?theorem (\S+).*?:= *(?:by)?)\s*(?:\n|$)',s,re.M|re.S):
        pass
    L=s.split('\n')
    for i,l in enumerate(L):
        m=re.match(r'theorem (\S+)',l)
        if m and m.group(1).startswith('C'):
            j=i; st=[]
            while True:
                st.append(L[j])
                if re.search(r':=( by)?( .*)?$',L[j]) and not re.search(r'let \w+ := ',L[j]): break
                if re.match(r'\s*\|',L[j]) : break
                j+=1
                if j>=len(L) or j>i+60: break
            k=i-1; doc=[]
            if L[k].rstrip().endswith('-/'):
                while not L[k].startswith('/--'): doc.insert(0,L[k]); k-=1
                doc.insert(0,L[k])
            src[m.group(1)]=('\n'.join(doc),'\n'.join(st))
for n in range(a,b+1):
    i='C%02d'%n
    p=props[i]; c=man[i]
    print('='*10,i,c['status'],'|',p['title']); print('STATEMENT:',p['statement']); print('QUANT:',p['quantifier']); print('NOTE:',c.get('note'))
    for t in c['theorems']:
        t=t.split('.')[-1]
        if t in src: print(src[t][0]); print(src[t][1])
        else: print('??',t)
