#!/usr/bin/env python3
"""Automatic seeded bugs: small textual changes at sites of the model's definitions, one at a time, in a scratch copy.
usage: mutate.py gen N seed > list.json ; mutate.py run list.json out.jsonl
A mutant whose own file no longer compiles is dropped; the build is stopped at the first theorem that fails."""
import json, os, re, subprocess, sys, random, signal, shutil, glob
SRC=os.environ.get('SEED_SRC','/tmp/w/snap/lean'); DST=os.environ.get('SEED_DST','/tmp/scratch2/lean')
SKIP={'Ed25519/FeProg.lean','Ed25519/ScProg.lean','Ed25519/Tables.lean'}
ERR=['ReqSuccess','ReqNameExisted','ReqNameNotFound','ErrMalformedMessage','ErrDirectory','CheckBadSTR','CheckBadSignature','CheckBindingsDiffer','CheckBrokenPromise','CheckBadPromise','ReqUnknownDirectory','ErrAuditLog','CheckBadVRFProof','CheckBadCommitment','CheckBadLookupIndex','CheckBadAuthPath','RegistrationType','KeyLookupType','MonitoringType','KeyLookupInEpochType']
OPS=[(r' < ',' ≤ '),(r' ≤ ',' < '),(r' > ',' ≥ '),(r' ≥ ',' > '),(r' ≠ ',' = '),(r' ∧ ',' ∨ '),(r' ∨ ',' ∧ '),(r' && ',' || '),(r' \|\| ',' && '),
 (r' == ',' != '),(r' \+ 1\b',''),(r' - 1\b',''),(r'\btrue\b','false'),(r'\bfalse\b','true'),(r'\.take\b','.drop'),(r'\.drop\b','.take'),
 (r'\.inclusion\b','.absence'),(r'\.absence\b','.inclusion'),(r' &&& ',' ||| '),(r' \|\|\| ',' &&& '),(r' <<< ',' >>> '),(r' >>> ',' <<< '),
 (r' \+ ',' - '),(r' \* ',' + '),(r'\bif ([^\n]*?) = ',None),(r'\b(\d+)\b','NUM'),(r'\b([a-z][\w.]*) \+\+ ([a-z][\w.]*)\b','SWAP'),(r'\bisSome\b','isNone'),(r'\.reverse\b','')]
def sites(path):
    s=open(path).read()
    # mask comments
    masked=re.sub(r'/-.*?-/',lambda m:re.sub(r'[^\n]',' ',m.group(0)),s,flags=re.S)
    masked=re.sub(r'--[^\n]*',lambda m:' '*len(m.group(0)),masked)
    defs=[(m.start(),m.group(1)) for m in re.finditer(r'^(?:@\[[^\]]*\] *)?(?:private |protected |noncomputable )?(?:def|abbrev|instance|inductive|structure|theorem|lemma|example|import|namespace|open|end)\s*([^\s:({\[]*)',masked,re.M)]
    kinds=[(m.start(),m.group(1)) for m in re.finditer(r'^(?:@\[[^\]]*\] *)?(?:private |protected |noncomputable )?(def|abbrev|instance|inductive|structure|theorem|lemma|example|import|namespace|open|end)\b',masked,re.M)]
    out=[]
    for i,(st,name) in enumerate(defs):
        kind=kinds[i][1]
        if kind not in('def','abbrev'): continue
        en=defs[i+1][0] if i+1<len(defs) else len(s)
        b=masked.find(':=',st,en); b2=re.compile(r'\n\s*\|').search(masked,st,en)
        cand=[x for x in (b, b2.start() if b2 else -1) if x>=0]
        if not cand: continue
        body=min(cand)
        for pat,rep in OPS:
            for m in re.finditer(pat,masked[body:en]):
                a=body+m.start(); z=body+m.end(); old=s[a:z]
                if rep is None:
                    new=old[:-3]+' ≠ '
                elif rep=='NUM':
                    new=str(int(m.group(1))+1)
                elif rep=='SWAP':
                    if m.group(1)==m.group(2): continue
                    new=m.group(2)+' ++ '+m.group(1)
                else: new=rep
                out.append((name,a,z,old,new))
        for e in ERR:
            for m in re.finditer(r'\b'+e+r'\b',masked[body:en]):
                o=random.choice([x for x in ERR if x!=e and (x.endswith('Type')==e.endswith('Type'))])
                out.append((name,body+m.start(),body+m.end(),e,o))
    return out
KW={'if','then','else','match','with','fun','let','some','none','true','false','do','from','have','at','open','in','by','Nat','Int','UInt8','UInt64','UInt32','List','Option','Bool'}
def sites2(path):
    """structural changes: another local variable, swapped arguments, a dropped field update, a dropped conjunct, a negated test, none for some"""
    s=open(path).read()
    masked=re.sub(r'/-.*?-/',lambda m:re.sub(r'[^\n]',' ',m.group(0)),s,flags=re.S)
    masked=re.sub(r'--[^\n]*',lambda m:' '*len(m.group(0)),masked)
    hd=re.compile(r'^(?:@\[[^\]]*\] *)?(?:private |protected |noncomputable )?(def|abbrev|instance|inductive|structure|theorem|lemma|example|import|namespace|open|end|section|mutual|variable|attribute|set_option)\b\s*([^\s:({\[]*)',re.M)
    ds=[(m.start(),m.group(1),m.group(2)) for m in hd.finditer(masked)]
    out=[]
    for i,(st,kind,name) in enumerate(ds):
        if kind not in('def','abbrev'): continue
        en=ds[i+1][0] if i+1<len(ds) else len(s)
        b=masked.find(':=',st,en); b2=re.compile(r'\n\s*\|').search(masked,st,en)
        cand=[x for x in (b, b2.start() if b2 else -1) if x>=0]
        if not cand: continue
        body=min(cand); txt=masked[body:en]
        loc=set(re.findall(r'[({]((?:[\w₀₁₂\']+ )+): ',masked[st:body]+' '))
        names=set(x for g in loc for x in g.split())
        names|=set(re.findall(r'\b(?:let|fun)\s+(?:mut )?([a-z][\w\']*)\b',txt))
        for pm in re.finditer(r'\n\s*\|([^=\n]*)=>',txt): names|=set(x for x in re.findall(r'(?<![.\w])[a-z][\w\']*',pm.group(1)) if x not in KW)
        names-=KW
        for v in names:
            for m in re.finditer(r'(?<![\w.])'+re.escape(v)+r'(?![\w\'])(?!\s*(?::=|=>))',txt):
                for w in random.sample(sorted(names-{v}),min(2,len(names)-1)):
                    out.append((name,body+m.start(),body+m.end(),v,w))
        for m in re.finditer(r'(?<![\w.])([a-z][\w.\']*|\([^()\n]*\)) ([a-z][\w.\']*|\([^()\n]*\))(?=[\s,)\]}⟩])',txt):
            if m.group(1) in KW or m.group(2) in KW: continue
            out.append((name,body+m.start(),body+m.end(),m.group(0),m.group(2)+' '+m.group(1)))
        for m in re.finditer(r'\{ ?([^{}|]*?) with ([^{}]*)\}',txt):
            fs=re.split(r',\s*(?=[a-z][\w.]* :=)|\n\s*(?=[a-z][\w.]* :=)',m.group(2).strip())
            for k in range(len(fs)):
                rest=fs[:k]+fs[k+1:]
                new='{ '+m.group(1)+' with '+', '.join(x.strip() for x in rest)+' }' if rest else m.group(1)
                out.append((name,body+m.start(),body+m.end(),s[body+m.start():body+m.end()],new))
        for m in re.finditer(r'\bif ([^\n]*?) (?:∧|∨|&&|\|\|) ([^\n]*?) then',txt):
            out.append((name,body+m.start(),body+m.end(),s[body+m.start():body+m.end()],'if '+m.group(1)+' then'))
            out.append((name,body+m.start(),body+m.end(),s[body+m.start():body+m.end()],'if '+m.group(2)+' then'))
        for m in re.finditer(r'\bif ([^\n:]*?) then',txt):
            out.append((name,body+m.start(),body+m.end(),s[body+m.start():body+m.end()],'if ¬ ('+m.group(1)+') then'))
        for m in re.finditer(r'=> some (\([^()\n]*\)|[\w.]+)',txt):
            out.append((name,body+m.start(),body+m.end(),s[body+m.start():body+m.end()],'=> none'))
        for m in re.finditer(r'=> ([^\n|]+)\n(\s*\| [^\n]*?)=> ([^\n|]+)(?=\n)',txt):
            if m.group(1).strip()!=m.group(3).strip():
                out.append((name,body+m.start(),body+m.end(),s[body+m.start():body+m.end()],'=> '+m.group(3)+'\n'+m.group(2)+'=> '+m.group(1)))
        for m in re.finditer(r'\b([\w.]+) :: ([\w.]+)\b',txt):
            out.append((name,body+m.start(),body+m.end(),m.group(0),m.group(2)))
        for m in re.finditer(r'(?<= )([\w.]+|\([^()\n]*\)) \+\+ ([\w.]+|\([^()\n]*\))',txt):
            out.append((name,body+m.start(),body+m.end(),m.group(0),m.group(1)))
            out.append((name,body+m.start(),body+m.end(),m.group(0),m.group(2)))
    return out
def gen(n,seed):
    random.seed(seed)
    allm=[]
    for p in sorted(glob.glob(SRC+'/Verif/Model/**/*.lean',recursive=True)):
        rel=os.path.relpath(p,SRC+'/Verif/Model')
        if rel in SKIP: continue
        bydef={}
        for t in (sites2 if os.environ.get('STRUCT') else sites)(p): bydef.setdefault(t[0],[]).append(t)
        for d,l in bydef.items():
            random.shuffle(l)
            for t in l[:n]: allm.append(dict(file='Model/'+rel,name=t[0],a=t[1],z=t[2],old=t[3],new=t[4]))
    random.shuffle(allm)
    json.dump(allm,sys.stdout)
def enclosing(path,line):
    name=None
    for i,l in enumerate(open(path),1):
        if i>line: break
        m=re.match(r'\s*(?:private |protected )?(theorem|example|def|instance|abbrev|structure|inductive)\s*([^\s:({\[]*)',l)
        if m: name=(m.group(2) or 'example@%d'%i) if m.group(1)!='example' else 'example@%d'%i
    return name
def run(lst,outp):
    ms=json.load(open(lst))
    done=set()
    if os.path.exists(outp):
        for l in open(outp): done.add(json.loads(l)['k'])
    for k,mu in enumerate(ms):
        if k in done: continue
        while os.path.exists('/tmp/w/mut/PAUSE'):
            import time; time.sleep(5)
        shutil.rmtree(DST,ignore_errors=True); os.makedirs(os.path.dirname(DST),exist_ok=True)
        subprocess.run(['cp','-a','--reflink=auto',SRC,DST],check=True)
        p=os.path.join(DST,'Verif',mu['file']); s=open(p).read()
        assert s[mu['a']:mu['z']]==mu['old']
        line=s.count('\n',0,mu['a'])+1
        ctx=s.split('\n')[line-1].strip()
        s=s[:mu['a']]+mu['new']+s[mu['z']:]
        open(p,'w').write(s)
        mod='Verif.'+mu['file'][:-5].replace('/','.')
        r=subprocess.run(['lake','build',mod],cwd=DST,capture_output=True,text=True)
        rec=dict(mu,k=k,line=line,ctx=ctx,after=s.split('\n')[line-1].strip())
        if r.returncode!=0: rec['verdict']='invalid'
        else:
            pr=subprocess.Popen(['nice','-n','5','lake','build'],cwd=DST,stdout=subprocess.PIPE,stderr=subprocess.STDOUT,text=True,preexec_fn=os.setsid)
            fail=None
            for l in pr.stdout:
                m=re.match(r'error: (Verif/\S+\.lean):(\d+):\d+:',l)
                if m:
                    fail=m.group(1)[6:-5]+':'+str(enclosing(os.path.join(DST,m.group(1)),int(m.group(2)))); break
            if fail:
                os.killpg(pr.pid,signal.SIGKILL); pr.wait(); rec['verdict']='killed'; rec['by']=fail
            else:
                rc=pr.wait(); rec['verdict']='survived' if rc==0 else 'other'
        with open(outp,'a') as f: f.write(json.dumps(rec,ensure_ascii=False)+'\n')
if sys.argv[1]=='gen': gen(int(sys.argv[2]),int(sys.argv[3]))
else: run(sys.argv[2],sys.argv[3])
