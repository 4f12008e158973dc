"""Regenerate MANIFEST.json and lean/Verif.lean from the sources and tools/notes.json."""
import json, os, re, glob
root = os.path.dirname(os.path.dirname(os.path.abspath(__file__)))
notes = json.load(open(os.path.join(root, 'tools/notes.json')))
thms = {}
docs = {}
mods = []
for f in sorted(glob.glob(os.path.join(root, 'lean/Verif/**/*.lean'), recursive=True)):
    mods.append(os.path.relpath(f, os.path.join(root, 'lean'))[:-5].replace('/', '.'))
    if '/Props/' not in f:
        continue
    text = open(f).read()
    for m in re.finditer(r'/--((?:(?!-/).)*)-/\s*theorem (C\d\d+_\S+)', text, re.S):
        docs['Mercurio.' + m.group(2)] = ' '.join(m.group(1).split())
    for line in text.splitlines():
        m = re.match(r'theorem (C\d\d+)_(\S+)', line)
        if m:
            thms.setdefault(m.group(1), []).append('Mercurio.%s_%s' % (m.group(1), m.group(2)))
claims = []
for l in open(os.path.join(root, 'properties.jsonl')):
    p = json.loads(l)
    i = p['id']
    if i not in thms and i not in notes:
        continue
    n = notes.get(i, {})
    ts = thms.get(i, [])
    status = n.get('status') or ('partial' if (not ts or any('_partial' in t or '_false' in t for t in ts)) else 'proved')
    shown = [t for t in ts if status == 'proved' or '_partial' in t or '_false' in t]
    note = n.get('note') or ' '.join(['%s.' % p['title']] + ['[%s] %s' % (t.split('.')[-1], docs[t]) for t in shown if t in docs])
    claims.append({'property': i, 'status': status, 'theorems': ts, 'note': note})
json.dump({'claims': claims}, open(os.path.join(root, 'MANIFEST.json'), 'w'), indent=1)
open(os.path.join(root, 'lean/Verif.lean'), 'w').write(''.join('import %s\n' % m for m in mods))
print(len(claims), 'claims', len(mods), 'modules')
