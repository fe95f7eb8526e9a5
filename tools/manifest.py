#!/usr/bin/env python3
"""Regenerate ../MANIFEST.json from the theorem names Cnn_... in lean/Verif and the statuses below."""
import json, os, re, glob
root = os.path.join(os.path.dirname(os.path.abspath(__file__)), '..')
notes = json.load(open(os.path.join(root, 'tools', 'status.json')))
thms = {}
for f in sorted(glob.glob(os.path.join(root, 'lean/Verif/**/*.lean'), recursive=True)):
    ns = []
    for line in open(f):
        m = re.match(r'namespace\s+(\S+)', line)
        if m: ns.append(m.group(1))
        m = re.match(r'end\s+(\S+)', line)
        if m and ns and ns[-1] == m.group(1): ns.pop()
        m = re.match(r'theorem\s+(C\d\d\w*)', line)
        if m:
            name = m.group(1)
            for pid in re.match(r'(C\d\d+)', name).groups():
                thms.setdefault(pid, []).append('.'.join(ns + [name]))
props = [json.loads(l)['id'] for l in open(os.path.join(root, 'properties.jsonl'))]
claims = []
for pid in props:
    st, note = notes.get(pid, ["partial", "not yet proved"])
    t = thms.get(pid, [])
    if not t and st != 'not_applicable':
        print('no theorems yet for', pid)
        st, note = "partial", "no theorem yet"
    claims.append(dict(property=pid, status=st, theorems=t, note=note))
json.dump({"claims": claims}, open(os.path.join(root, 'MANIFEST.json'), 'w'), indent=1)
for k in thms:
    if k not in props: print('unknown property', k)
