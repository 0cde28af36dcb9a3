import re,sys,subprocess,glob,os
paths={os.path.basename(p):p for p in glob.glob('/repo/fixedIncome/**/*.py',recursive=True)}
f=sys.argv[1]; s=open(f).read()
base=None
for m in re.finditer(r'/--(.*?)-/\s*\n((?:noncomputable |@\[[^\]]*\] )*(?:def|structure|inductive|abbrev) \S+)',s,re.S):
    c=m.group(1)
    cites=[]
    cur=None
    for t in re.finditer(r'(\w+\.py):([\d, -]+)',c):
        cites.append((t.group(1),t.group(2)))
    print('##',m.group(2),'|',' '.join(c.split())[:150])
    for fn,rs in cites:
        L=open(paths[fn]).read().split('\n')
        for r in re.findall(r'\d+(?:-\d+)?',rs):
            a,*b=r.split('-'); a=int(a); b=int(b[0]) if b else a
            print('    ',r,'FIRST:',L[a-1].strip()[:80],' LAST:',L[b-1].strip()[:80])
