"""Normalise source citations in doc comments: full /repo paths, and for helper definitions the cited
definition that uses them.  Run once after adding modules; it changes comments only."""
import re,glob,os,sys
os.chdir('/verif/lean')
DECL=re.compile(r'^(?:@\[.*\]\s*)?(?:private\s+|protected\s+|noncomputable\s+)*(def|structure|inductive|abbrev)\s+(\S+)')
ANY=re.compile(r'^(?:@\[.*\]\s*)?(?:private\s+|protected\s+|noncomputable\s+)*(theorem|lemma|def|structure|inductive|abbrev|instance|example)\b')
NAMED={r'(?<![/\w])citations\.py l\.':'/repo/flavio/citations.py:',r'(?<![/\w])measurements\.py l\.':'/repo/flavio/measurements.py:',
 r'(?<![/\w])_parse_errors\.py l\.':'/repo/flavio/_parse_errors.py:',r'(?<![/\w])math/functions\.py l\.':'/repo/flavio/math/functions.py:',
 r'(?<![/\w])statistics/probability\.py l\.':'/repo/flavio/statistics/probability.py:',r'(?<![/\w])probability\.py l\.':'/repo/flavio/statistics/probability.py:'}
DIRS={'Probability':'/repo/flavio/statistics/probability.py','Dict':'/repo/flavio/statistics/probability.py','Parse':'/repo/flavio/_parse_errors.py','Measurements':'/repo/flavio/measurements.py','Citations':'/repo/flavio/citations.py'}
MODELS=[p for p in sorted(glob.glob('Verif/**/*.lean',recursive=True)) if os.path.basename(p) in ('Model.lean','Dist.lean','Gamma.lean','Combine.lean','Numerical.lean','Multivariate.lean','Load.lean','Corr.lean','Covariance.lean','Average.lean','Yaml.lean','Optimize.lean','Statistics.lean','Running.lean','Eft.lean','Ckm.lean','Common.lean') or p in sys.argv[1:]]
def docs(s): return list(re.finditer(r'/--.*?-/',s,re.S))
for p in MODELS:
    s=open(p).read(); d=p.split('/')[1]
    def fix(m):
        t=m.group(0)
        for a,b in NAMED.items(): t=re.sub(a,b,t)
        if '/repo/' not in t and d in DIRS: t=re.sub(r'(?<![\w.])l\.(?=\d)',DIRS[d]+':',t,count=1)
        return t
    s=re.sub(r'/--.*?-/',fix,s,flags=re.S)
    open(p,'w').write(s)
# helpers
for p in MODELS:
    for _ in range(6):
        s=open(p).read(); L=s.split('\n'); items=[]
        for i,l in enumerate(L):
            m=DECL.match(l)
            if not m: continue
            j=i-1
            while j>=0 and L[j].startswith(('omit','open ','set_option')): j-=1
            if j<0 or not L[j].rstrip().endswith('-/'): items.append((m.group(2),i,None,None)); continue
            k=j
            while not L[k].startswith('/--'): k-=1
            e=i+1
            while e<len(L) and not ANY.match(L[e]) and not L[e].startswith('/-'): e+=1
            items.append((m.group(2),k,j,'\n'.join(L[i:e])))
        def cite(it):
            if it[2] is None: return None
            t='\n'.join(L[it[1]:it[2]+1]); m=re.search(r'/repo/\S+?\.py(?::[\d, -]*\d)?',t); return m.group(0) if m else None
        ch=False
        for it in items:
            if it[2] is None or cite(it): continue
            short=it[0].split('.')[-1]
            for u in items:
                if u is it or not u[3] or not cite(u): continue
                if re.search(r'(?<![\w])'+re.escape(short)+r'(?![\w])',u[3]):
                    L[it[2]]=re.sub(r'\s*-/\s*$','',L[it[2]])
                    add=f"(Used for `{u[0]}`, {cite(u)}.) -/"
                    if len(L[it[2]])+len(add)<108: L[it[2]]+=' '+add
                    else: L[it[2]]+='\n'+add
                    ch=True; break
            if ch: break
        # repeat until no change
        open(p,'w').write('\n'.join(L))
        if not ch: break
    n=0
    while ch and n<200:
        n+=1
        s=open(p).read(); L=s.split('\n'); items=[]
        for i,l in enumerate(L):
            m=DECL.match(l)
            if not m: continue
            j=i-1
            while j>=0 and L[j].startswith(('omit','open ','set_option')): j-=1
            if j<0 or not L[j].rstrip().endswith('-/'): items.append((m.group(2),i,None,None)); continue
            k=j
            while not L[k].startswith('/--'): k-=1
            e=i+1
            while e<len(L) and not ANY.match(L[e]) and not L[e].startswith('/-'): e+=1
            items.append((m.group(2),k,j,'\n'.join(L[i:e])))
        ch=False
        for it in items:
            if it[2] is None or cite(it): continue
            short=it[0].split('.')[-1]
            for u in items:
                if u is it or not u[3] or not cite(u): continue
                if re.search(r'(?<![\w])'+re.escape(short)+r'(?![\w])',u[3]):
                    L[it[2]]=re.sub(r'\s*-/\s*$','',L[it[2]])
                    add=f"(Used for `{u[0]}`, {cite(u)}.) -/"
                    if len(L[it[2]])+len(add)<108: L[it[2]]+=' '+add
                    else: L[it[2]]+='\n'+add
                    ch=True; break
            if ch: break
        open(p,'w').write('\n'.join(L))
    print(p,[it[0] for it in items if not cite(it)])
