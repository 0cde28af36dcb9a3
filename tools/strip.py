import re,sys,os,glob
root=sys.argv[1]
top=re.compile(r'^(theorem|lemma|def|noncomputable|instance|structure|inductive|abbrev|private|end|namespace|open|section|variable|set_option|@\[|/--|/-!|/-|example|--|attribute|local|omit|include|universe|deriving)\b|^(@\[|/--|/-!|/-|--)')
n=0
for f in glob.glob(root+'/Verif/**/*.lean',recursive=True):
    L=open(f).read().split('\n'); out=[]; i=0
    while i<len(L):
        if re.match(r'^(noncomputable )?example\b',L[i]):
            # drop preceding doc comment / set_option in
            while True:
                if out and re.match(r'^(set_option .* in|open .* in|omit .* in)\s*$',out[-1]): out.pop(); continue
                if out and out[-1].rstrip().endswith('-/'):
                    j=len(out)-1
                    while j>=0 and not re.match(r'^/-',out[j]): j-=1
                    if j>=0 and out[j].startswith('/--'): out=out[:j]; continue
                break
            i+=1
            while i<len(L) and not top.match(L[i]): i+=1
            n+=1
            continue
        out.append(L[i]); i+=1
    open(f,'w').write('\n'.join(out))
print(n)
