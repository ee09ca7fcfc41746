#!/usr/bin/env python3
"""Apply seeded bugs to a scratch copy of the model, rebuild, record which theorems fail.
usage: seed.py muts.json   (list of {id, file, old, new, def, edit, claim, also:[files]})"""
import json, os, re, subprocess, sys, shutil
SRC=os.environ.get('SEED_SRC','/verif/lean'); DST='/tmp/scratch/lean'
def sync():
    os.makedirs('/tmp/scratch',exist_ok=True)
    subprocess.run(['rsync','-a','--delete',SRC+'/',DST+'/'],check=True) if shutil.which('rsync') else (shutil.rmtree(DST,ignore_errors=True), shutil.copytree(SRC,DST,symlinks=True))
def enclosing(path,line):
    name=None
    for i,l in enumerate(open(path),1):
        if i>line: break
        m=re.match(r'\s*(?:private |protected )?(theorem|example|def|instance|abbrev|structure|inductive)\s*([^\s:({\[]*)',l)
        if m: name=(m.group(2) or 'example@%d'%i) if m.group(1)!='example' else 'example@%d'%i
    return name
def imports(mod,files):
    out=[]
    for l in open(files[mod]):
        m=re.match(r'import (Verif\S+)',l)
        if m: out.append(m.group(1))
    return out
def main():
    muts=json.load(open(sys.argv[1]))
    logf='/verif/seeded/LOG.jsonl'
    for mu in muts:
        sync()
        ok=True
        for f in [mu['file']]+mu.get('also',[]):
            p=os.path.join(DST,'Verif',f)
            s=open(p).read()
            if mu['old'] not in s:
                print('NOMATCH',mu['id'],f); ok=False; break
            s=s.replace(mu['old'],mu['new'], -1 if mu.get('all') else 1)
            open(p,'w').write(s)
        if not ok: continue
        r=subprocess.run(['lake','build'],cwd=DST,capture_output=True,text=True,timeout=2400)
        out=r.stdout+r.stderr
        failed=[]
        for m in re.finditer(r'error: (Verif/\S+\.lean):(\d+):\d+:',out):
            n=enclosing(os.path.join(DST,m.group(1)),int(m.group(2)))
            q=m.group(1)[6:-5]+':'+str(n)
            if q not in failed: failed.append(q)
        badmods=set(re.findall(r'^- (Verif\S*)',out,re.M))
        files={}
        for d,_,fs in os.walk(os.path.join(DST,'Verif')):
            for f in fs:
                if f.endswith('.lean'):
                    p=os.path.join(d,f); files[os.path.relpath(p,DST)[:-5].replace('/','.')]=p
        blocked=set()
        ch=True
        while ch:
            ch=False
            for mod in files:
                if mod in badmods or mod in blocked: continue
                if any(i in badmods or i in blocked for i in imports(mod,files)):
                    blocked.add(mod); ch=True
        rec={'id':mu['id'],'definition':mu['def'],'edit':mu['edit'],'claim_broken':mu['claim'],
             'theorems_failed':failed,'modules_not_built_because_they_depend_on_failed_ones':sorted(m for m in blocked if '.Props.' in m),
             'survived':r.returncode==0,'theorems_tightened':mu.get('tightened',[])}
        with open(logf,'a') as f: f.write(json.dumps(rec)+'\n')
        print(mu['id'],'SURVIVED' if r.returncode==0 else 'killed',failed[:6],sorted(blocked)[:8],flush=True)
main()
