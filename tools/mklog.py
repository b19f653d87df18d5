"""Turn the raw results of the automatic and hand-made mutation runs (outside /verif) into
seeded/LOG.jsonl: one line per attempt. Usage: mklog.py RESULT.jsonl..."""
import json,glob,re,sys,collections,os
root=os.path.dirname(os.path.dirname(os.path.abspath(__file__)))
DECL=re.compile(r'^(?:@\[.*?\]\s*)?(?:private\s+|protected\s+|noncomputable\s+)*(theorem|lemma|def|example|instance|structure|inductive|abbrev)\s+(\S+)?')
users=collections.defaultdict(set); decl=[]
for p in glob.glob(root+'/lean/Verif/**/*.lean',recursive=True):
    lines=open(p).read().split('\n'); ds=[(i,DECL.match(l)) for i,l in enumerate(lines)]; ds=[(i,m) for i,m in ds if m]
    mod=os.path.relpath(p,root+'/lean/Verif')[:-5].replace('/','.')
    for k,(i,m) in enumerate(ds):
        e=ds[k+1][0] if k+1<len(ds) else len(lines)
        name=m.group(2) or ''
        if m.group(1)=='example': name='example@%d'%(i+1)
        txt='\n'.join(lines[i:e])
        for w in set(re.findall(r"[\w'«».]+",txt)):
            for q in {w,w.split('.')[-1]}: users[q].add((mod,name))
cname=re.compile(r'(?:^|\.)(C\d\d+)_')
def claims(short,depth=6):
    seen={short}; front={short}; out=[]
    for _ in range(depth):
        nxt=set()
        for s in front:
            for mod,n in users.get(s,()):
                if cname.search('.'+n): out.append(n)
                elif n not in seen and not n.startswith('example'): nxt.add(n.split('.')[-1])
        seen|=nxt; front=nxt
        if out: break
    return sorted(set(out))
recs=collections.OrderedDict(); was={}
for f in sys.argv[1:]:
    for l in open(f):
        d=json.loads(l)
        if d['status'] in('invalid','timeout'): continue
        k=(d['file'],d['definition'],d['old'],d['new'],d['context'])
        was.setdefault(k,[]).append(d['status']); recs[k]=d
props={json.loads(l)['id']:json.loads(l)['title'] for l in open(root+'/properties.jsonl')}
out=[]
for k,d in recs.items():
    r=dict(definition=d['file'][:-5].replace('/','.')+'.'+d['definition'],
      edit=d.get('edit') or f"replaced {d['old']!r} by {d['new']!r} in: ... {' '.join(d['context'].split())} ...")
    if d['status']=='killed':
        cs=sorted({cname.search('.'+x.split('.')[-1]).group(1) for x in d['failed'] if cname.search('.'+x.split('.')[-1])})
        via=[]
        if not cs:
            for x in d['failed']:
                via+=claims(x.split('.')[-1])
            cs=sorted({cname.search('.'+x).group(1) for x in via})[:3]
        r['claim']=d.get('claim') or ('; '.join(f'{c}: {props.get(c,"")}' for c in cs[:4]) or 'the worked case (non-vacuity example) beside the theorem')
        r['theorems_failed']=d['failed']
        if via: r['theorems_no_longer_provable']=sorted(set(via))[:6]
        r['theorems_tightened']=d.get('tightened') or ([x for x in d['failed']][:6] if 'survived' in was[k][:-1] else [])
    else:
        r['claim']=d.get('claim') or 'none: the edit leaves the observable behaviour stated by the claims unchanged (equivalent program, unreachable branch, or only the class of an error raised for malformed input)'
        r['theorems_failed']=[]; r['theorems_tightened']=[]
    out.append(r)
with open(root+'/seeded/LOG.jsonl','w') as fo:
    for r in out: fo.write(json.dumps(r,ensure_ascii=False)+'\n')
print(len(out),collections.Counter(bool(r['theorems_failed']) for r in out),sum(bool(r['theorems_tightened']) for r in out), sum(r['claim'].startswith('the worked') for r in out))
