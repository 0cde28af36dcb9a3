import json,subprocess,sys,re,os,time,signal,random
sys.path.insert(0,'/tmp/work')
from seed import decls
N,DST=sys.argv[1],sys.argv[2]; part=int(sys.argv[3]); parts=int(sys.argv[4])
SRC='/verif/lean'
if not os.path.exists(DST): subprocess.run(['cp','-rp',SRC,DST],check=True)
ms=json.load(open(f'/tmp/work/auto/mut_{N}.json'))[part::parts]
outp=f'/tmp/work/auto/res_{N}_{part}.jsonl'
done=set(json.loads(l)['id'] for l in open(outp)) if os.path.exists(outp) else set()
env=dict(os.environ,PATH='/app/lean4-4.33.0/build/release/stage1/bin:'+os.environ['PATH'])
base={}
for m in ms:
    if m['id'] in done: continue
    p=f"{DST}/Verif/{m['file']}"; s=open(p).read()
    if s[m['pos']:m['pos']+len(m['old'])]!=m['old']: print(m['id'],'stale'); continue
    st=os.stat(p)
    open(p,'w').write(s[:m['pos']]+m['new']+s[m['pos']+len(m['old']):])
    t=time.time()
    pr=subprocess.Popen(['nice','-n','5','lake','build','Verif'],cwd=DST,env=env,stdout=subprocess.PIPE,stderr=subprocess.STDOUT,text=True,preexec_fn=os.setsid)
    errs=[];ok=False;grace=None
    for l in pr.stdout:
        mm=re.match(r'error: (Verif/[\w/]+\.lean):(\d+):\d+: (.*)',l)
        if mm:
            f,n=DST+'/'+mm.group(1),int(mm.group(2)); name='?'
            for (k,kind,nm) in decls(f):
                if k<=n: name=(kind+' ' if kind!='theorem' else '')+(nm or '')+('@%d'%k if kind=='example' else '')
            e=[mm.group(1),name]
            if e not in errs: errs.append(e)
        if errs and re.match(r'[✔⚠✖ℹ]',l) :
            # finished reporting that module
            os.killpg(pr.pid,signal.SIGTERM); break
        if 'Build completed successfully' in l: ok=True
    pr.wait()
    open(p,'w').write(s); os.utime(p,(st.st_atime,st.st_mtime))
    status='survived' if ok else ('invalid' if any(e[0]=='Verif/'+m['file'] and not e[1].startswith('example') and not e[1][:1]=='C' and e[1].split()[0] in('def','instance','structure') for e in errs) or not errs else 'killed')
    with open(outp,'a') as f: f.write(json.dumps({**m,'status':status,'errs':errs,'secs':int(time.time()-t)},ensure_ascii=False)+'\n')
    print(m['id'],m['file'],m['defn'],status,[e[1] for e in errs][:4],int(time.time()-t),flush=True)
