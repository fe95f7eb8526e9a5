#!/usr/bin/env python3
"""Apply one wrong-program edit to a scratch copy of the Lean project and report which theorems break.

usage: mutate.py FILE.json      (list of {file, def, old, new, claim, [witness], [tightened]})

For each edit: copy /verif/lean to /tmp/scratch, replace `old` by `new` (must occur exactly once) in
lean/Verif/<file>, build with `lake build`, map every error to the enclosing theorem, and append one line to
/verif/seeded/LOG.jsonl.  `witness` is Lean code that must compile against the edited model alone and shows the
claim false of it (so the failure is not just a brittle proof)."""
import json, os, re, subprocess, sys, shutil
SC='/tmp/scratch'
def sh(c, **k): return subprocess.run(c, shell=True, capture_output=True, text=True, **k)
def sync():
    sh(f'mkdir -p {SC} && rsync -a --delete /verif/lean/ {SC}/') if shutil.which('rsync') else sh(f'rm -rf {SC} && cp -a /verif/lean {SC}')
def enclosing(path, line):
    name='?'
    for i,l in enumerate(open(path)):
        if i>=line: break
        m=re.match(r'(?:@\[.*?\]\s*)?(?:private )?(theorem|def|example|instance|inductive|structure)\s*(\S*)', l)
        if m: name = m.group(2) if m.group(1)!='example' else 'example@%d'%(i+1)
    return name
muts=json.load(open(sys.argv[1]))
for m in muts:
    sync()
    p=f'{SC}/Verif/{m["file"]}'
    s=open(p).read()
    n=s.count(m['old'])
    if n!=1:
        print('SKIP', m['def'], 'old occurs', n); continue
    open(p,'w').write(s.replace(m['old'], m['new']))
    r=sh('lake build 2>&1', cwd=SC, timeout=3600)
    failed=[]
    for f,l in re.findall(r'error: (?:\S*/)?(Verif/\S+?\.lean):(\d+):', r.stdout):
        t=f[6:-5].replace('/','.')+':'+enclosing(f'{SC}/{f}', int(l))
        if t not in failed: failed.append(t)
    blocked=[]
    if r.returncode!=0:
        # modules that could not be rebuilt: their property theorems no longer hold as checked
        mods=set(re.findall(r'(Verif\S*\.lean)', '\n'.join(x for x in r.stdout.splitlines() if 'error' in x)))
        bad={x[:-5].replace('/','.') for x in mods}
        imp={}
        for root,_,fs in os.walk(f'{SC}/Verif'):
            for f in fs:
                if f.endswith('.lean'):
                    q=os.path.join(root,f); mod=q[len(SC)+1:-5].replace('/','.')
                    imp[mod]=(q, re.findall(r'^import (Verif\S*)', open(q).read(), re.M))
        ch=True
        while ch:
            ch=False
            for mod,(q,i) in imp.items():
                if mod not in bad and any(x in bad for x in i): bad.add(mod); ch=True
        for mod in sorted(bad):
            if mod in imp:
                direct={t.split(':')[1] for t in failed}
                blocked += [x for x in re.findall(r'^theorem (C\d+_\S+)', open(imp[mod][0]).read(), re.M) if x not in direct]
    wit=None
    if m.get('witness'):
        mod='Verif.'+m['file'][:-5].replace('/','.')
        w=f'{SC}/Wit.lean'
        open(w,'w').write('\n'.join(f'import {x}' for x in [mod]+m.get('wimports',[]))+'\n'+m['witness'])
        rr=sh(f'lake build {mod} {" ".join(m.get("wimports",[]))} && lake env lean Wit.lean', cwd=SC, timeout=600)
        wit = 'ok' if rr.returncode==0 else 'FAILED: '+(rr.stdout+rr.stderr)[-400:]
    out={'definition':m['def'],'edit':m.get('edit') or f"{m['old']!r} -> {m['new']!r}",'claim_broken':m['claim'],
         'theorems_failed':failed,'property_theorems_blocked':blocked[:12],'witness':wit,'theorems_tightened':m.get('tightened',[])}
    if r.returncode==0: out['verdict']='SURVIVED'
    else: out['verdict']='killed'
    print(out['verdict'], m['def'], m.get('edit',''), '|', failed[:4], '|', wit)
    if '--dry' not in sys.argv:
        open('/verif/seeded/LOG.jsonl','a').write(json.dumps(out,ensure_ascii=False)+'\n')
