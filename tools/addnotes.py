import sys,re
# usage: add notes from stdin lines: Cnn|status|note
p='/verif/tools/notes.py'
s=open(p).read().rstrip()
assert s.endswith('}')
s=s[:-1]
for l in sys.stdin:
    l=l.strip()
    if not l: continue
    a,b,c=l.split('|',2)
    s=re.sub(r"^'%s':.*\n"%a,"",s,flags=re.M)
    s+="'%s': (%r, %r),\n"%(a,b,c)
s+="}\n"
open(p,'w').write(s)
