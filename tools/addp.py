import sys
# usage: addp.py FILE  (FILE has python p(...) lines)
new=open(sys.argv[1]).read()
f='/tmp/w/props.py'
s=open(f).read()
i=s.index("def upd(")
s=s[:i]+new.rstrip()+"\n"+s[i:]
open(f,'w').write(s)
