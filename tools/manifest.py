"""Regenerate lean/Verif.lean and MANIFEST.json from the sources and tools/status.json."""
import json, re, pathlib
root = pathlib.Path(__file__).resolve().parent.parent
lean = root / 'lean'
mods = sorted(str(p.relative_to(lean)).replace('/', '.')[:-5] for p in (lean / 'Verif').rglob('*.lean'))
(lean / 'Verif.lean').write_text(''.join(f'import {m}\n' for m in mods))
thms = {}
for p in sorted((lean / 'Verif' / 'Props').rglob('*.lean')):
    ns = []
    for line in p.read_text().splitlines():
        m = re.match(r'namespace (\S+)', line)
        if m: ns.append(m.group(1))
        m = re.match(r'end (\S+)', line)
        if m and ns and ns[-1] == m.group(1): ns.pop()
        m = re.match(r'(?:@\[[^\]]*\] )?theorem (C(\d+)_[\w\']+)', line)
        if m: thms.setdefault('C' + m.group(2), []).append('.'.join(ns + [m.group(1)]))
status = json.loads((root / 'tools' / 'status.json').read_text())
claims = []
for line in (root / 'properties.jsonl').read_text().splitlines():
    if not line.strip(): continue
    d = json.loads(line)
    i = d['id']
    s = status.get(i)
    if i not in thms and (s is None or s[0] != 'not_applicable'):
        print('no theorems yet:', i); continue
    if s is None: s = ['proved', '']
    claims.append({'property': i, 'status': s[0], 'theorems': thms.get(i, []), 'note': s[1]})
for i in thms:
    if i not in {c['property'] for c in claims}: print('theorem without property', i)
(root / 'MANIFEST.json').write_text(json.dumps({'claims': claims}, indent=1) + '\n')
print(len(claims), 'claims', sum(len(c['theorems']) for c in claims), 'theorems')
