import re,ast,glob,os
cites={}
for f in glob.glob('/verif/lean/Verif/Model/*.lean'):
    s=open(f).read()
    for c in re.findall(r'/-.*?-/',s,re.S):
        for m in re.finditer(r'([\w]+\.py):([\d,\s\-]+(?:(?:and|with|,)\s*[\d\-]+)*)',c):
            fn=m.group(1)
            for r in re.finditer(r'(\d+)(?:-(\d+))?',m.group(2)):
                a=int(r.group(1)); b=int(r.group(2) or a)
                cites.setdefault(fn,[]).append((a,b))
for p in sorted(glob.glob('/repo/fixedIncome/src/**/*.py',recursive=True)):
    fn=os.path.basename(p)
    t=ast.parse(open(p).read())
    out=[]
    def walk(n,pre):
        for c in ast.iter_child_nodes(n):
            if isinstance(c,(ast.FunctionDef,ast.ClassDef)):
                if isinstance(c,ast.FunctionDef):
                    body=[x for x in c.body]
                    rng=set(range(c.lineno,c.end_lineno+1))
                    cov=set()
                    for a,b in cites.get(fn,[]): cov|=set(range(a,b+1))
                    fr=len(rng&cov)/len(rng)
                    if fr<0.5: out.append((pre+c.name,c.lineno,c.end_lineno,round(fr,2)))
                walk(c,pre+c.name+'.')
    walk(t,'')
    if out: print(p.replace('/repo/fixedIncome/src/','')); [print('   ',*o) for o in out]
