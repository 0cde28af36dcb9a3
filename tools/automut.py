import re,glob,json,random
random.seed(int(__import__('sys').argv[1]) if len(__import__('sys').argv)>1 else 1)
PER=int(__import__('sys').argv[2]) if len(__import__('sys').argv)>2 else 2
OPS=[(r'(?<=\s)<(?=\s)','≤'),(r'(?<=\s)≤(?=\s)','<'),(r'(?<=\s)>(?=\s)','≥'),(r'(?<=\s)≥(?=\s)','>'),
 (r'(?<=\s)\+(?=\s)','-'),(r'(?<=\s)-(?=\s)','+'),(r'(?<=\s)\*(?=\s)','+'),(r'(?<=\s)/(?=\s)','*'),
 (r'(?<=\s)==(?=\s)','!='),(r'(?<=\s)=(?=\s\S+ then)','≠'),(r'&&','||'),(r'\|\|','&&'),(r'(?<=\s)∧(?=\s)','∨'),(r'(?<=\s)∨(?=\s)','∧'),
 (r'(?<![\w.])(\d+)(?![\w.])','INC'),(r'\.1\b','.2'),(r'\.2\b','.1'),(r'\btrue\b','false'),(r'\bfalse\b','true'),
 (r'\bmin\b','max'),(r'\bmax\b','min'),(r'\bif (.+?) then','NEG'),(r'\.(typeError|valueError|indexError|keyError|attributeError|overflowError|zeroDivision\w*)\b','ERR'),
 (r'\bstart(\w*)\b','END'),(r'\bhead\?','getLast?'),(r'\bgetLast\?','head?'),(r'\.fixed\b','.float'),(r'\bdropLast\b','tail'),(r'\btail\b','dropLast'),(r'\.reverse\b',''),
 (r'\bnext(\w*)\b','NP'),(r'\bprior(\w*)\b','PN'),(r'\bsum\b','prod'),(r'(?<=\s)\^(?=\s)','*'),(r'Real\.exp','Real.sqrt'),(r'\bexp \(-','exp (')]
out=[];n=0
for f in sorted(glob.glob('/verif/lean/Verif/Model/*.lean')):
    s=open(f).read(); k=f.replace('/verif/lean/Verif/','')
    starts=[m.start() for m in re.finditer(r'^(?:@\[[^\]]*\] )?(?:private |noncomputable )*(?:def|abbrev)\s+(\S+)',s,re.M)]
    ends=[m.start() for m in re.finditer(r'^(?:/--|/-!|end |namespace |structure |inductive |theorem |instance |lemma |open |variable |section|deriving|(?:@\[[^\]]*\] )?(?:private |noncomputable )*(?:def|abbrev)\s)',s,re.M)]+[len(s)]
    for st in starts:
        en=min(e for e in ends if e>st)
        body=s[st:en]
        name=re.search(r'(?:def|abbrev)\s+(\S+)',body).group(1)
        # start after ':=' or first ' |'
        mm=re.search(r':=|\n\s*\|',body)
        if not mm: continue
        off=mm.end()
        cands=[]
        for pat,rep in OPS:
            for m in re.finditer(pat,body[off:]):
                a,b=off+m.start(),off+m.end(); t=body[a:b]
                line=body[body.rfind('\n',0,a)+1:a]
                if '--' in line: continue
                if rep=='INC': r=str(int(t)+1)
                elif rep=='NEG': r='if ¬(%s) then'%m.group(1)
                elif rep=='ERR': r='.keyError' if 'keyError' not in t else '.valueError'
                elif rep=='END': r='end'+m.group(1)
                elif rep=='NP': r='prior'+m.group(1)
                elif rep=='PN': r='next'+m.group(1)
                else: r=rep
                cands.append((a,b,t,r))
        random.shuffle(cands)
        for a,b,t,r in cands[:PER]:
            n+=1
            old=body; new=body[:a]+r+body[b:]
            ln=s.count('\n',0,st+a)+1
            ls=body.rfind('\n',0,a)+1; le=body.find('\n',a); le=len(body) if le<0 else le
            out.append(dict(id='auto%s_%04d'%(__import__('sys').argv[1],n),file=k,defn=name,pos=st+a,line=ln,old=t,new=r,
              oldline=body[ls:le].strip(),newline=(body[ls:a]+r+body[b:le]).strip()))
json.dump(out,open('/tmp/work/auto/mut_%s.json'%__import__('sys').argv[1],'w'),indent=1,ensure_ascii=False)
print(len(out))
