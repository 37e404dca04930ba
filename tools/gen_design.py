"""Writes DESIGN.md from design_head.md, design_props.md and design_tail.md; checks that every property is listed."""
import json, re
d='/verif/tools/'
head=open(d+'design_head.md').read().rstrip()+'\n\n'
rows=[l.strip() for l in open(d+'design_props.md') if l.strip()]
out='| Properties | What is modelled | How it is proved |\n|---|---|---|\n'
seen=set()
for l in rows:
    a=[x.strip() for x in l.split(' | ')]
    assert len(a)==3,l
    for i in a[0].split(','):
        i=i.strip()
        m=re.fullmatch(r'C(\d+)-C(\d+)',i)
        seen.update(['C%02d'%k for k in range(int(m[1]),int(m[2])+1)] if m else [i])
    out+='| '+' | '.join(a)+' |\n'
ids=[json.loads(l)['id'] for l in open('/verif/properties.jsonl')]
print('not listed:',[i for i in ids if i not in seen],'unknown:',[i for i in seen if i not in ids])
open('/verif/DESIGN.md','w').write(head+out+'\n'+open(d+'design_tail.md').read())
