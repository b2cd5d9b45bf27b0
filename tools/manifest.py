#!/usr/bin/env python3
"""Build MANIFEST.json from tools/claims.txt-like data in this file and from the theorem names found in
lean/Verif/Props/*.lean (every theorem called C##_... is listed under its property)."""
import json, re, glob, os
root = os.path.dirname(os.path.dirname(os.path.abspath(__file__)))
status = json.load(open(os.path.join(root, 'tools', 'status.json')))
thms = {}
for f in sorted(glob.glob(os.path.join(root, 'lean/Verif/Props/*.lean'))):
    for m in re.finditer(r'^theorem\s+((C\d+)_\w+)', open(f).read(), re.M):
        thms.setdefault(m.group(2), []).append('Btrd.' + m.group(1))
claims = []
for pid in sorted(set(thms) | set(status), key=lambda x: int(x[1:])):
    st = status.get(pid)
    if st is None or pid not in thms:
        if st and st[0] == 'not_applicable':
            claims.append({"property": pid, "status": st[0], "theorems": [], "note": st[1]})
        else:
            print('skip', pid, 'status' if st else 'no status', len(thms.get(pid, [])))
        continue
    claims.append({"property": pid, "status": st[0], "theorems": thms[pid], "note": st[1]})
json.dump({"claims": claims}, open(os.path.join(root, 'MANIFEST.json'), 'w'), indent=1, ensure_ascii=False)
print(len(claims), 'claims', sum(len(c['theorems']) for c in claims), 'theorems')
