"""Writes MANIFEST.json and lean/Verif/Audit.lean. Claims live in tools/claims.py; theorems of a property Cnn are all theorems
named Cnn_* in lean/Verif/Props/*.lean, so the manifest cannot drift from the sources."""
import json, re, glob, os
root = os.path.dirname(os.path.dirname(os.path.abspath(__file__)))
ns = {}
exec(open(root + '/tools/claims.py').read(), ns)
thms = {}
mods = []
for f in sorted(glob.glob(root + '/lean/Verif/Props/*.lean')):
    mods.append(os.path.basename(f)[:-5])
    for m in re.finditer(r'^theorem (C(\d\d+)_\w+)', open(f).read(), re.M):
        thms.setdefault('C' + m[2], []).append('Verif.' + m[1])
claims = []
for l in open(root + '/properties.jsonl'):
    i = json.loads(l)['id']
    if i not in thms and i not in ns['CLAIMS']:
        continue
    st, note = ns['CLAIMS'].get(i, ('partial', 'in progress'))
    claims.append({"property": i, "status": st, "theorems": thms.get(i, []), "note": note})
json.dump({"claims": claims}, open(root + '/MANIFEST.json', 'w'), indent=1)
with open(root + '/lean/Verif/Audit.lean', 'w') as f:
    for m in mods:
        f.write('import Verif.Props.%s\n' % m)
    f.write('/-! Axioms of every property theorem (generated by tools/gen_manifest.py). -/\n')
    for i in sorted(thms):
        for t in thms[i]:
            f.write('#print axioms %s\n' % t)
print(len(claims), 'claims', sum(map(len, thms.values())), 'theorems')
