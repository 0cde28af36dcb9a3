import re,glob,sys
def show(pref,maxdoc=400):
    out=[]
    for f in sorted(glob.glob('/verif/lean/Verif/Props/*.lean')):
        s=open(f).read()
        for m in re.finditer(r'(/--(?:(?!-/).)*-/\s*)?theorem (%s_\w+)((?:.|\n)*?):= *(by)?\n?'%pref,s):
            out.append((f.split('/')[-1],m.group(2),(m.group(1) or '')[:maxdoc],m.group(3)))
    for o in out: print('##',o[0],o[1]); print(o[2]); print(o[3]); print()
for a in sys.argv[1:]: show(a)
