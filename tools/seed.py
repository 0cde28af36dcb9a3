#!/usr/bin/env python3
"""usage: seed.py mutants.json  -- each: {id, file, old, new, edit, claim}. Results appended to /tmp/work/seed_results.jsonl"""
import json,subprocess,sys,re,os,shutil,time
SRC='/verif/lean'; DST='/tmp/seed'
def sync():
    os.makedirs(DST,exist_ok=True)
    subprocess.run(['rsync','-a','--delete','--exclude','.lake',SRC+'/',DST+'/'],check=False) if shutil.which('rsync') else None
    if not shutil.which('rsync'):
        if not os.path.exists(DST+'/.lake'):
            shutil.rmtree(DST,ignore_errors=True); subprocess.run(['cp','-r',SRC,DST],check=True)
        else:
            subprocess.run(f'rm -rf {DST}/Verif {DST}/Verif.lean && cp -rp {SRC}/Verif {SRC}/Verif.lean {DST}/',shell=True,check=True)
def decls(path):
    out=[]
    for n,l in enumerate(open(path).read().split('\n'),1):
        m=re.match(r'\s*(?:private |noncomputable |@\[[^\]]*\] )*(theorem|lemma|def|example|instance|structure|inductive)\b\s*([^\s:({\[]*)',l)
        if m: out.append((n,m.group(1),m.group(2)))
    return out
def build(target=None):
    r=subprocess.run(['/tmp/work/lk.sh',target or 'Verif',DST],capture_output=True,text=True)
    o=r.stdout+r.stderr
    errs=[]
    for m in re.finditer(r'error: (Verif/[\w/]+\.lean):(\d+):\d+: (.*)',o):
        f,n=DST+'/'+m.group(1),int(m.group(2))
        name='?'
        for (k,kind,nm) in decls(f):
            if k<=n: name=(kind+' ' if kind!='theorem' else '')+(nm or '')+('@%d'%k if kind=='example' else '')
        errs.append((m.group(1),name))
    seen=[];
    for e in errs:
        if e not in seen: seen.append(e)
    ok='Build completed successfully' in o
    return ok,seen,o
if __name__=='__main__':
    sync()
    ms=json.load(open(sys.argv[1])); sel=sys.argv[2:]
    for m in ms:
        if sel and m['id'] not in sel: continue
        p=f"{DST}/Verif/{m['file']}"
        s=open(p).read()
        if s.count(m['old'])<1 or (s.count(m['old'])!=1 and not m.get('all')):
            print(m['id'],'BAD MATCH',s.count(m['old'])); continue
        open(p,'w').write(s.replace(m['old'],m['new']))
        t=time.time(); ok,errs,o=build()
        open(p,'w').write(s)
        rec={'id':m['id'],'ok':ok,'errs':errs}
        with open('/tmp/work/seed_results.jsonl','a') as f: f.write(json.dumps({**m,**rec})+'\n')
        open('/tmp/work/seed_%s.log'%m['id'],'w').write(o)
        print(m['id'],'SURVIVED' if ok else 'killed',len(errs),[e[1] for e in errs][:12],'%ds'%(time.time()-t),flush=True)
