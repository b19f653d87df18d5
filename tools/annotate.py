#!/usr/bin/env python3
"""Comments only: give every definition without a citation either one (model helpers, table M) or the label
'Specification' (vocabulary of the statements)."""
import re,glob,os
os.chdir('/verif/lean')
C='/repo/flavio/classes.py:'; P='/repo/flavio/statistics/probability.py:'; F='/repo/flavio/functions.py:'; L='/repo/flavio/statistics/likelihood.py:'
E='/repo/flavio/_parse_errors.py:'; R='/repo/flavio/physics/running/running.py:'; O='/repo/flavio/math/optimize.py:'; B='/repo/flavio/physics/bdecays/'
LIB='Python library semantics used by the model'
M={('Constraints/Model','Op'):C+'144-212',('Constraints/Model','step'):C+'144-212',('Constraints/Model','run'):C+'144-212',
('Dict/Model','tolistL'):P+"74-110,2032-2063",('Dict/Model','normL'):P+'99-133',('Dict/Model','normD'):P+'99-133',('Dict/Model','roundTrip'):P+'99-133',
('Functions/Model','runPlain'):F+'105-140',('Functions/Model','predictionPar'):F+'141-153',('Functions/Model','serialMap'):F+'60-71',('Functions/Model','kwLookup'):F+'48-90',('Functions/Model','bindArgs'):F+'48-90',
('IO/Yaml','Path'):'/repo/flavio/io/yaml.py:1-82',('Likelihood/Covariance','covRun'):L+'361-430',
('Likelihood/Covariance','RegOp'):C+"20-69",('Likelihood/Covariance','regCall'):C+'20-60',('Likelihood/Covariance','regStep'):C+'20-60',('Likelihood/Covariance','regRun'):C+'20-60',
('Likelihood/Model','Cache.init'):L+'138-160',('Likelihood/Model','predictionCalls'):L+'138-160',
('Math/Optimize','schedule'):O+"6-52",('Math/Optimize','resultAt'):O+'40-96',
('Parse/Model','patSymmetricErr'):E+'39',('Parse/Model','patAsymmetricErr'):E+'40',('Parse/Model','PD.centralValue'):P+'100-400',
('Parse/AllStrings','ErrDict'):E+'115-133',('Parse/AllStrings','errorsFromConstraints'):E+'115-133',
('Parse/Limits','uniformRange'):P+'151-153',('Physics/Running','CacheOp'):R+'38-75',('Physics/Running','cacheStep'):R+'38-75',
('Registry/Model','Op'):C+"20-69",('Registry/Model','Op.cls'):C+'20-60',('Registry/Model','step'):C+'20-60',('Registry/Model','init'):C+'20-60',('Registry/Model','run'):C+'20-60',
('Probability/Dist','expP'):P+'100-133',('Observables/Model','taxonomyRun'):C+'634-660',('Observables/Model','Tree.hasPath'):C+'634-660',
('Physics/Angular/Cache','Call'):B+'bvll/observables.py:111-206',('Physics/Angular/Cache','runCall'):B+'bvll/observables.py:20-110',('Physics/Angular/Cache','runAll'):B+'bvll/observables.py:20-110',
('Physics/Angular/BinsP','PDecay.val'):B+'bpll.py:79-121',
('Physics/Mixing/Common','A12'):'/repo/flavio/physics/mesonmixing/common.py:24-39',('Physics/Mixing/Common','A21'):'/repo/flavio/physics/mesonmixing/common.py:20-40',('Physics/Mixing/Common','wdiff'):'/repo/flavio/physics/mesonmixing/common.py:20-40',
('Physics/Mixing/Box','vZero'):'/repo/flavio/physics/mesonmixing/wilsoncoefficient.py:9-31',('Physics/Mixing/Box','vDiag'):'/repo/flavio/physics/mesonmixing/wilsoncoefficient.py:1-60',('Physics/Mixing/Box','vGen'):'/repo/flavio/physics/mesonmixing/wilsoncoefficient.py:1-60',('Physics/Mixing/Box','vBox'):'/repo/flavio/physics/mesonmixing/wilsoncoefficient.py:1-60',
}
DECL=re.compile(r'^(?:@\[.*\]\s*)?(?:private\s+|protected\s+|noncomputable\s+)*(def|structure|inductive|abbrev|class)\s+(\S+)')
for p in sorted(glob.glob('Verif/**/*.lean',recursive=True)):
    mod=p[6:-5]; Ls=open(p).read().split('\n'); out=[]; i=0; ch=False
    while i<len(Ls):
        m=DECL.match(Ls[i])
        if m:
            j=len(out)-1
            while j>=0 and out[j].startswith(('omit','open ','set_option','@[')): j-=1
            doc='';k=None
            if j>=0 and out[j].rstrip().endswith('-/'):
                k=j
                while not out[k].startswith('/--') and k>0 and not out[k].startswith('/-'): k-=1
                if out[k].startswith('/--'): doc=' '.join(out[k:j+1])
                else: k=None
            if not ('/repo/' in doc or re.search('pecification|sample|example|concrete|Concrete|on-vacuity|witness|library semantics',doc)):
                name=m.group(2)
                if (mod,name) in M: lab=('Used for' if doc else 'Helper for')+' '+M[(mod,name)]+'.'
                elif mod.startswith('Py/'): lab=LIB+'.'
                elif mod=='Dict/Names' and name!='Cls.expected':
                    lab='/repo/flavio/statistics/probability.py:17-72'
                    mm=re.search(r'l\.(\d+(?:-\d+)?)',doc)
                    if mm: lab=P+mm.group(1)
                    lab=lab+'.'
                else: lab='(Specification.)'
                if k is None:
                    out.insert(j+1,'/-- '+lab+' -/')
                else:
                    e=out[j].rstrip(); assert e.endswith('-/')
                    body=e[:-2].rstrip()
                    if len(body)+len(lab)+4<=118: out[j]=body+' '+lab+' -/'
                    else:
                        out[j]=body; out.insert(j+1,lab+' -/')
                ch=True
        out.append(Ls[i]); i+=1
    if ch: open(p,'w').write('\n'.join(out))
