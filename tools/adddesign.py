"""adddesign.py ID 'plan text' ['finding text']: insert a row in the plan table of DESIGN.md and a finding before section 5."""
import sys,re
i,plan=sys.argv[1],sys.argv[2]; f=sys.argv[3] if len(sys.argv)>3 else None
s=open('/verif/DESIGN.md').read()
prev='| C%02d |'%(int(i[1:])-1)
k=s.index(prev); e=s.index('\n',k)
s=s[:e+1]+'| %s | %s |\n'%(i,plan)+s[e+1:]
if f:
    k=s.index('\n## 5. Axioms')
    s=s[:k].rstrip('\n')+'\n- %s: %s\n'%(i,f)+s[k:]
open('/verif/DESIGN.md','w').write(s)
