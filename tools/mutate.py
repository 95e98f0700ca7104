#!/usr/bin/env python3
"""Seeded-bug testing. Usage: mutate.py FILE.json [--log]; FILE.json is a list of
{"file": "Model/Name.lean", "old": "...", "new": "...", "def": "...", "claim": "C11: ...", "expect": ["C11"]}.
Works in a scratch copy $MUT or /tmp/mut (never in /verif): applies the edit to the model, rebuilds, lists the declarations that fail and the
property theorems that depend on them, and appends one line per edit to /verif/seeded/LOG.jsonl when --log is given."""
import json, os, re, subprocess, sys
SRC='/verif/lean'; TMP=os.environ.get('MUT', '/tmp/mut'); DST=TMP+'/lean'
def sh(c, **k): return subprocess.run(c, shell=True, capture_output=True, text=True, **k)
os.makedirs(TMP, exist_ok=True)
sh(f'rsync -a --delete {SRC}/ {DST}/') if sh('which rsync').returncode == 0 else sh(f'rm -rf {DST}; cp -a {SRC} {DST}')
q = DST + '/Verif.lean'; open(q + '.new', 'w').write(''.join(l for l in open(q) if 'Verif.Vectors' not in l)); os.replace(q + '.new', q)  # test vectors are not theorems
sh(f'cp /verif/tools/deps.txt {TMP}/deps.lean'); o = sh(f'lake env lean {TMP}/deps.lean', cwd=DST)
deps = {}
for l in o.stdout.splitlines():
    if l.startswith('DEP '):
        d = json.loads(l[4:]); deps[d['thm']] = {x.replace('«','').replace('»','') for x in d['deps']}
assert deps, o.stdout[-2000:] + o.stderr[-2000:]
def enclosing(path, line):
    ls = open(path).read().split('\n')
    for i in range(min(line, len(ls)) - 1, -1, -1):
        m = re.match(r'(?:@\[[^\]]*\]\s*)?(?:private )?(theorem|def|example|instance|structure|abbrev|inductive)\b\s*([^\s:({\[]*)', ls[i])
        if m: return m[1], m[2]
    return '?', '?'
def block(path, name):
    """The theorems of the mutual block with theorem `name`: their compiled forms do not mention each other."""
    for b in re.findall(r'^mutual\n(.*?)^end\n', open(path).read(), re.M | re.S):
        ns = re.findall(r'^theorem\s+([^\s:({\[]+)', b, re.M)
        if name in ns: return ns
    return [name]
muts = json.load(open(sys.argv[1])); log = '--log' in sys.argv
for mu in muts:
    p = DST + '/Verif/' + mu['file']; orig = open(p).read()
    if orig.count(mu['old']) != 1:
        print('NOT UNIQUE', orig.count(mu['old']), mu['def'], mu['old'][:60]); continue
    open(p, 'w').write(orig.replace(mu['old'], mu['new']))
    o = sh('lake build 2>&1', cwd=DST)
    bad = []
    for m in re.finditer(r'^error: (Verif/\S+\.lean):(\d+):', o.stdout, re.M):
        k, n = enclosing(DST + '/' + m[1], int(m[2]))
        t = (m[1], k, n)
        if t not in bad: bad.append(t)
    names = {'Verif.' + x for f, k, n in bad if k != 'example' for x in block(DST + '/' + f, n)}
    hit = sorted(t for t, ds in deps.items() if names & ds or 'Verif.' + t in names)
    modelbroken = [b for b in bad if '/Model/' in b[0] or '/Go/' in b[0]]
    open(p, 'w').write(orig)
    exp = mu.get('expect', [])
    missed = [e for e in exp if not any(t.startswith(e) for t in hit)]
    print(('MODEL-BROKEN ' if modelbroken else '') + ('SURVIVED' if not bad else 'caught'), mu['def'], '|', mu['claim'], '| direct:', [b[2] for b in bad][:8], '| props:', hit, '| MISSED' if missed else '', missed or '')
    sys.stdout.flush()
    if log and not modelbroken:
        with open('/verif/seeded/LOG.jsonl', 'a') as f:
            f.write(json.dumps({"definition": mu['def'], "file": "lean/Verif/" + mu['file'], "edit": {"old": mu['old'], "new": mu['new']}, "claim_broken": mu['claim'],
                "failed_directly": [b[2] or b[1] for b in bad], "theorems_failed": hit, "theorems_tightened": mu.get('tightened', [])}) + '\n')
sh('lake build', cwd=DST)
