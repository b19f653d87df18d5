#!/usr/bin/env python3
"""Regenerate section 6 of DESIGN.md (coverage of /repo, computed from the citations in the doc comments)."""
import re,glob,collections,ast,os
cited=collections.defaultdict(set)
for f in glob.glob('/verif/lean/Verif/**/*.lean',recursive=True):
    for m in re.finditer(r'/repo/(flavio/[\w/]+\.py):([\d]+(?:\s*-\s*\d+)?(?:,\s*\d+(?:\s*-\s*\d+)?)*)',open(f).read()):
        for r in m.group(2).split(','):
            a,*b=[int(x) for x in r.split('-')]
            cited[m.group(1)]|=set(range(a,(b[0] if b else a)+1))
out=['## 6. Coverage of /repo (generated by tools/mkdesign.py from the citations)','',
 'For each source file: the functions with at least one cited line, and those with none. "Cited" means that a definition of the model names these lines; what is simplified there is said in that comment.','',
 '| file | modelled | not modelled |','|---|---|---|']
no=[]
for p in sorted(glob.glob('/repo/flavio/**/*.py',recursive=True)):
    rel=os.path.relpath(p,'/repo')
    if 'test' in os.path.basename(p): continue
    src=open(p).read()
    if not src.strip(): continue
    fs=[]
    def walk(n,pre):
        for c in ast.iter_child_nodes(n):
            if isinstance(c,(ast.FunctionDef,)): fs.append((pre+c.name,c.lineno,c.end_lineno))
            elif isinstance(c,ast.ClassDef): walk(c,pre+c.name+'.')
    walk(ast.parse(src),'')
    c=cited.get(rel,set())
    if not c: no.append((rel,len(src.split('\n')))); continue
    y=[n for n,a,b in fs if c&set(range(a,b+1))]; z=[n for n,a,b in fs if not c&set(range(a,b+1))]
    out.append(f'| {rel} | {", ".join(y) or "module level"} | {", ".join(z) or "-"} |')
out+=['','Files with no modelled line (in total %d lines): '%sum(n for _,n in no)+', '.join(r.replace('flavio/','',1) for r,_ in no)+'.','']
d=open('/verif/DESIGN.md').read()
i=d.find('## 6. Coverage')
if i>=0: d=d[:i]
open('/verif/DESIGN.md','w').write(d.rstrip('\n')+'\n\n'+'\n'.join(out))
