#!/usr/bin/env python3
"""Mutation testing of the theorems: applies edits of /verif/seeded/mutants.json to a scratch copy of the
Lean project (a snapshot of /verif in /tmp/scratch/snap), replaces proofs that break by placeholders (in the scratch copy only), and reports which
property theorems no longer have a proof.  Usage: mutate.py [id ...]"""
import json, os, re, subprocess, sys, shutil, time
SRC='/tmp/scratch/snap/lean'; DST='/tmp/scratch/lean'; MUT='/verif/seeded/mutants.json'; RES='/tmp/scratch/results.jsonl'
PH='sor'+'ry'
DECL=re.compile(r'^(?:@\[[^\]]*\]\s*)?(?:private |protected |noncomputable )*(theorem|lemma|example|def|instance|structure|inductive|abbrev)\b\s*([^\s:({\[]*)')
TOP=re.compile(r'^(?:@\[|private |protected |noncomputable |theorem|lemma|example|def|instance|structure|inductive|abbrev|namespace|end |variable|set_option|open|section|/-|--|#|attribute|omit|include|import)')
def reset():
    os.makedirs(DST,exist_ok=True)
    for d in ('Verif',):
        shutil.rmtree(f'{DST}/{d}',ignore_errors=True)
        subprocess.run(['cp','-a',f'{SRC}/{d}',f'{DST}/{d}'],check=True)
    shutil.rmtree(f'{DST}/.lake',ignore_errors=True)
    subprocess.run(f'cp -a {SRC}/.lake {DST}/.lake; cp -a {SRC}/Verif.lean {SRC}/lakefile.toml {SRC}/lake-manifest.json {SRC}/lean-toolchain {DST}/ 2>/dev/null',shell=True)
def blocks(lines):
    """(start,end,kind,name) of declarations; doc comments are separate."""
    out=[];cur=None;incom=False
    for i,l in enumerate(lines):
        if incom:
            if '-/' in l: incom=False
            continue
        if TOP.match(l):
            if cur: out.append((*cur,i));cur=None
            if l.startswith('/-'):
                if '-/' not in l: incom=True
                continue
            m=DECL.match(l)
            if m: cur=(i,m.group(1),m.group(2))
    if cur: out.append((*cur,len(lines)))
    return [(s,e,k,n) for (s,k,n,e) in out]
def stub(text):
    depth=0;i=0
    while i<len(text):
        c=text[i]
        if c in '([{⟨': depth+=1
        elif c in ')]}⟩': depth-=1
        elif depth==0 and text.startswith(':=',i) and not re.search(r'\b(let|have)\b[^\n]*$',text[:i].split('\n')[-1]):
            return text[:i]+':= '+PH+'\n\n'
        elif depth==0 and text.startswith('\n  | ',i): return text[:i]+' := '+PH+'\n\n'
        i+=1
    return None
def build():
    p=subprocess.run(['lake','build'],cwd=DST,capture_output=True,text=True)
    o=p.stdout+p.stderr
    errs=set(re.findall(r'error: (Verif/\S+\.lean):(\d+):\d+:',o))
    return p.returncode,errs,o
def run(m):
    reset()
    for e in m['edits']:
        f=f"{DST}/Verif/{e['file']}"; t=open(f).read()
        if t.count(e['old'])!=1: return {'id':m['id'],'status':'bad edit: %d matches for %r'%(t.count(e['old']),e['old'])}
        open(f,'w').write(t.replace(e['old'],e['new']))
    broken=[];defs=[]
    for it in range(25):
        rc,errs,o=build()
        if rc==0: break
        if not errs: return {'id':m['id'],'status':'build failure','out':o[-1500:]}
        byf={}
        for f,l in errs: byf.setdefault(f,set()).add(int(l)-1)
        for f,ls in byf.items():
            lines=open(f'{DST}/{f}').read().split('\n'); bl=blocks(lines); hit={}
            for l in ls:
                b=[x for x in bl if x[0]<=l<x[1]]
                if b: hit[b[0]]=1
                else: defs.append(f'{f}:{l+1}')
            if not hit: return {'id':m['id'],'status':'invalid','defs':defs,'out':o[-1500:]}
            for (s,e,k,n) in sorted(hit,reverse=True):
                if k not in('theorem','lemma','example'): 
                    defs.append(n); return {'id':m['id'],'status':'invalid','defs':defs,'broken':broken,'out':o[-1500:]}
                st=stub('\n'.join(lines[s:e]))
                if st is None or PH in '\n'.join(lines[s:e]): return {'id':m['id'],'status':'cannot stub '+f+' '+n,'broken':broken}
                broken.append(n if n else f'example {f}:{s+1}')
                lines[s:e]=st.split('\n')
            open(f'{DST}/{f}','w').write('\n'.join(lines))
    else: return {'id':m['id'],'status':'no fixpoint','broken':broken}
    man=json.load(open('/tmp/scratch/snap/MANIFEST.json')); ths=[t for c in man['claims'] for t in c['theorems']]
    open(f'{DST}/Ax.lean','w').write('import Verif\n'+'\n'.join('#print axioms '+t for t in ths)+'\n')
    p=subprocess.run(['lake','env','lean','Ax.lean'],cwd=DST,capture_output=True,text=True)
    txt=re.sub(r'\n\s+',' ',p.stdout)
    failed=[x for x,ax in re.findall(r"'Recourse\.(\S+)' depends on axioms: \[([^\]]*)\]",txt) if 'sorryAx' in ax]
    return {'id':m['id'],'status':'ok','broken':broken,'failed':failed,'iters':it}
if __name__=='__main__':
    muts=json.load(open(MUT)); want=sys.argv[1:]
    done=set()
    if os.path.exists(RES): done={json.loads(l)['id'] for l in open(RES)}
    for m in muts:
        if want and m['id'] not in want: continue
        if not want and m['id'] in done: continue
        t=time.time(); r=run(m); r['secs']=round(time.time()-t)
        open(RES,'a').write(json.dumps(r,ensure_ascii=False)+'\n')
        print(m['id'],r['status'],len(r.get('broken',[])),'broken;',len(r.get('failed',[])),'claims',r['secs'],'s',flush=True)
