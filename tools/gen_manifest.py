"""Write MANIFEST.json from the theorem names in lean/Verif/Props and the notes below."""
import json, re, glob, os
root = os.path.dirname(os.path.dirname(os.path.abspath(__file__)))
notes = {}
exec(open(os.path.join(root, 'tools/notes.py')).read())
thms = {}
for f in sorted(glob.glob(root + '/lean/Verif/Props/*.lean')):
    ns = []
    for line in open(f):
        m = re.match(r'namespace (\S+)', line)
        if m: ns.append(m.group(1))
        m = re.match(r'end (\S+)', line)
        if m and ns and ns[-1] == m.group(1): ns.pop()
        m = re.match(r'(?:noncomputable )?theorem (C\d\d+)_(\S+)', line)
        if m:
            thms.setdefault(m.group(1), []).append('.'.join(ns + [m.group(1) + '_' + m.group(2)]))
claims = []
for line in open(root + '/properties.jsonl'):
    i = json.loads(line)['id']
    t = thms.get(i, [])
    n = notes.get(i, '')
    if t:
        partial = any(x.endswith('_partial') or 'refuted' in x for x in t)
        claims.append({"property": i, "status": "partial" if partial else "proved", "theorems": t, "note": n})
    elif n:
        claims.append({"property": i, "status": "not_applicable", "theorems": [], "note": n})
    else:
        print('no theorem yet:', i)
json.dump({"claims": claims}, open(root + '/MANIFEST.json', 'w'), indent=1, ensure_ascii=False)
print(len(claims), 'claims')
