#!/usr/bin/env python3
"""Mutation tester (scratch copies only; never edits /verif/lean).

usage: mutate.py muts.json [name-filter]
muts.json: list of {"def","file","old","new","claim","expect":["C01",..]}; "file" relative to lean/Verif.
For each: copy lean/ to a scratch directory, apply the edit, build; every theorem whose proof no longer
checks has its proof replaced by the placeholder axiom (in the scratch copy) so that everything downstream is
still checked; at the end, the Cnn_ theorems that depend on the placeholder are the ones that failed.
Appends one line per mutation to seeded/LOG.jsonl.
"""
import json, os, re, shutil, subprocess, sys, glob
SRC='/verif/lean'; SC=os.environ.get('MUT_SC','/tmp/scratch/lean')
HOLE='so'+'rry'
def sh(cmd): return subprocess.run(cmd,shell=True,capture_output=True,text=True)
def sync():
    os.makedirs(os.path.dirname(SC),exist_ok=True)
    sh(f'rsync -a --delete {SRC}/ {SC}/' if shutil.which('rsync') else f'rm -rf {SC} && cp -a {SRC} {SC}')
DECL=re.compile(r'^(?:@\[[^\]]*\]\s*)?(?:private |protected |noncomputable )*(theorem|lemma|example|def|instance|structure|inductive|abbrev|end|namespace|section|open|variable|/-|attribute|deriving)\b|^/-',re.M)
def patch(path,line):
    """replace the proof of the theorem enclosing `line` (1-based). returns its name or None"""
    L=open(path).read().split('\n')
    i=line-1
    while i>=0 and not re.match(r'^(?:@\[[^\]]*\]\s*)?(?:private |protected |noncomputable )*(theorem|lemma|example|def|instance)\b',L[i]): i-=1
    if i<0: return None,False
    head=L[i]
    m=re.match(r'^(?:@\[[^\]]*\]\s*)?(?:private |protected |noncomputable )*(theorem|lemma|example|def|instance)\s*(\S*)',head)
    kind,name=m.group(1),m.group(2)
    j=i+1
    while j<len(L) and not re.match(r'^(@\[|private |protected |noncomputable |theorem|lemma|example|def |instance|structure|inductive|abbrev|end |end$|namespace|section|open |variable|/-|attribute|omit|set_option|macro)',L[j]): j+=1
    blk='\n'.join(L[i:j])
    if kind in('example',):
        k=i
        if k>0 and L[k-1].rstrip().endswith('-/'):
            while k>0 and not L[k-1].lstrip().startswith('/-'): k-=1
            if k>0: k-=1
        L[k:j]=['']*(j-k); open(path,'w').write('\n'.join(L)); return 'example',True
    if kind in ('def','instance'): return name,False
    # find proof start: last-resort heuristics
    k=None
    mw=re.search(r' where\n',blk)
    m1=re.search(r':= by\b|:=\s*\n',blk)
    if mw and (not m1 or mw.start()<m1.start()): k=(mw,'where')
    for pat in () if k else (r':= by\b',r':=\s*\n',r'\n  \| ',r':= fun\b',r':= (?!\w+[,}])'):
        mm=list(re.finditer(pat,blk))
        if mm: k=(mm[0],pat); break
    me=re.search(r'\n  \| ',blk)
    if me and k and me.start()<k[0].start(): k=(me,'eqns')
    if not k: return name,False
    st=k[0].start()
    newblk=blk[:st]+' := by '+HOLE
    pad=blk.count('\n')-newblk.count('\n')
    L[i:j]=(newblk+'\n'*pad).split('\n')
    open(path,'w').write('\n'.join(L))
    return name,True
def theorems():
    out=[]
    for f in sorted(glob.glob(SRC+'/Verif/**/*.lean',recursive=True)):
        ns=[]
        for l in open(f):
            m=re.match(r'namespace (\S+)',l)
            if m: ns.append(m.group(1))
            m=re.match(r'end (\S+)',l)
            if m and ns and ns[-1]==m.group(1): ns.pop()
            m=re.match(r'theorem (C\d\d\w*)',l)
            if m: out.append(('.'.join(ns+[m.group(1)])))
    return out
def run(mu):
    sync()
    p=f"{SC}/Verif/{mu['file']}"
    s=open(p).read()
    if s.count(mu['old'])<1: print('NOT FOUND',mu['def'],mu['old']); return None
    n=mu.get('nth',0)
    parts=s.split(mu['old'])
    if len(parts)>2 and 'nth' not in mu: print('AMBIGUOUS',len(parts)-1,mu['old'])
    s=mu['old'].join(parts[:n+1])+mu['new']+mu['old'].join(parts[n+1:])
    open(p,'w').write(s)
    broken=[];stuck=False
    for it in range(60):
        r=sh(f'cd {SC} && lake build Verif 2>&1')
        errs=re.findall(r'error: (Verif/\S+?\.lean):(\d+):',r.stdout)
        if not errs:
            if r.returncode!=0: stuck='build: '+r.stdout[-500:]
            break
        did=set();ok_any=False
        for f,ln in sorted(set((f,int(l)) for f,l in errs),key=lambda t:(t[0],-t[1])):
            nm,ok=patch(f'{SC}/{f}',ln)
            if (f,nm,ok) in did and nm!='example': continue
            did.add((f,nm,ok))
            if ok:
                ok_any=True
                if nm!='example': broken.append(nm)
            else:
                print('cannot patch',f,ln,nm)
        if not ok_any: stuck='unpatchable '+str(errs[:3]); print(r.stdout[-1500:]); break
    T=theorems()
    failed=[]
    if not stuck:
        open(f'{SC}/Chk.lean','w').write('import Verif\n'+'\n'.join(f'#print axioms {t}' for t in T))
        r=sh(f'cd {SC} && lake env lean Chk.lean')
        for m in re.finditer(r"'(\S+)' depends on axioms: \[([^\]]*)\]",r.stdout):
            if HOLE+'Ax' in m.group(2): failed.append(m.group(1).split('.')[-1])
        if 'error' in r.stdout: print(r.stdout[:500])
    failed+=[b for b in sorted(set(broken)) if re.match(r'C\d+_',b) and b not in failed]
    claims=sorted({f.split('_')[0] for f in failed})
    missing=[e for e in mu.get('expect',[]) if e not in claims and e not in failed]
    print(('STUCK ' if stuck else '')+mu['def'],'|',mu['edit'],'| claims failed:',claims,'| direct:',sorted(set(broken))[:12],'| SURVIVED' if missing else '', missing)
    if stuck: print('   ',stuck)
    if stuck: return None
    return dict(definition=mu['def'],edit=mu['edit'],claim_broken=mu['claim'],theorems_failed=failed,direct_failures=sorted(set(broken)),theorems_tightened=mu.get('tightened',[]),survived_expected=missing)
if __name__=='__main__':
    muts=json.load(open(sys.argv[1]))
    flt=sys.argv[2] if len(sys.argv)>2 else ''
    for mu in muts:
        mu.setdefault('edit',f"`{mu['old']}` -> `{mu['new']}`")
        if flt and flt not in mu['def']+mu['edit']: continue
        r=run(mu)
        if r and '--nolog' not in sys.argv:
            open('/verif/seeded/LOG.jsonl','a').write(json.dumps(r)+'\n')
        sys.stdout.flush()
