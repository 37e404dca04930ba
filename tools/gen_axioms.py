import json,subprocess,re
m=json.load(open('/verif/MANIFEST.json'))['claims']
names=[t for c in m for t in c['theorems']]
open('/tmp/ax/a.lean','w').write('import Verif\n'+'\n'.join('#print axioms '+n for n in names))
out=subprocess.run(['lake','env','lean','/tmp/ax/a.lean'],cwd='/verif/lean',capture_output=True,text=True).stdout
out=re.sub(r'\n\s+',' ',out)
d={}
for mm in re.finditer(r"'(\S+)' (?:depends on axioms: \[(.*?)\]|does not depend on any axioms)",out): d[mm.group(1)]=mm.group(2) or ''
assert set(d)==set(names),(set(names)-set(d))
w=['# Axioms of the property theorems','','Output of `#print axioms` for every theorem of MANIFEST.json, grouped by the axioms used. P = propext, C = Classical.choice, Q = Quot.sound.','']
g={}
for n in names:
    k=', '.join(sorted({'propext':'P','Classical.choice':'C','Quot.sound':'Q'}[x.strip()] for x in d[n].split(',') if x.strip())) or 'none'
    g.setdefault(k,[]).append(n.split('.',1)[1])
for k in sorted(g): w+=[f'## {k}','', ', '.join(g[k]),'']
open('/verif/AXIOMS.md','w').write('\n'.join(w))
print({k:len(v) for k,v in g.items()})
