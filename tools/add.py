import sys,json
# usage: import add; add.prop("..."); add.note(...)
def prop(code):
    p='/tmp/work/props.py';s=open(p).read()
    s=s.replace("if __name__=='__main__':",code.strip('\n')+"\nif __name__=='__main__':");open(p,'w').write(s)
def note(c,st,n):
    p='/tmp/work/notes.json';d=json.load(open(p));d[c]=[st,n];json.dump(d,open(p,'w'),indent=1)
