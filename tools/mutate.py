#!/usr/bin/env python3
"""Mutation test of the theorems.  Usage: mutate.py SPEC.json OUT.jsonl
SPEC: list of {id, file, old, new, definition, edit, claim, expect:[property ids]}.
For every mutant, a scratch copy of lean/ outside /verif is edited and rebuilt; the proofs that no longer check are replaced (in the
scratch copy only) by a placeholder until everything builds, and the theorems of MANIFEST.json that then rest on a placeholder are listed.
"""
import json,sys,subprocess,re,os,shutil
SRC=os.environ.get('MUT_SRC','/verif/lean')
MAN=os.environ.get('MUT_MAN','/verif/MANIFEST.json')
def sh(c,cwd): return subprocess.run(c,shell=True,cwd=cwd,capture_output=True,text=True)
def decl_start(lines,n):
    i=n
    while i>=0:
        if re.match(r'(@\[[^\]]*\]\s*)?(private |protected |noncomputable )*(theorem|lemma|example|def|instance|structure|inductive|abbrev|deriving)\b',lines[i]): return i
        i-=1
    return None
def blank(path,n):
    L=open(path).read().split('\n')
    i=decl_start(L,n)
    if i is None: return None
    kind=re.search(r'\b(theorem|lemma|example|def|instance|structure|inductive|abbrev|deriving)\b',L[i]).group(1)
    if kind not in('theorem','lemma','example'): return ('BADDEF',L[i])
    e=i+1
    while e<len(L) and (L[e]=='' or L[e][0]in' \t' or L[e].startswith('| ')): e+=1
    text='\n'.join(L[i:e])
    d=0;k=0;pos=None
    while k<len(text):
        ch=text[k]
        if ch in'([{⟨': d+=1
        elif ch in')]}⟩': d-=1
        elif d==0 and text.startswith(':=',k) and not re.search(r'\blet\s+\S+\s*(:[^:=\n]*)?$',text[:k]): pos=k;break
        elif d==0 and text[k]=='\n' and text.startswith('\n  | ',k): pos=k;break
        k+=1
    if pos is None: return('NOPOS',L[i])
    m=re.search(r'(?:theorem|lemma)\s+(\S+)',L[i])
    name=m.group(1) if m else 'example'
    if 'sorry' in text[pos:]: return('AGAIN',name)
    new=text[:pos].rstrip()+' := by sorry'
    tail=text[len(text.rstrip()):]
    # keep the set_option ... in / doc lines
    L[i:e]=(new+tail).split('\n')
    open(path,'w').write('\n'.join(L))
    return('OK',name)
def run(m,work):
    sh(f'rm -rf {work} && mkdir -p {os.path.dirname(work)} && cp -a {SRC} {work}',"/")
    p=f"{work}/{m['file']}"
    s=open(p).read()
    if s.count(m['old'])!=1: return dict(error=f"old occurs {s.count(m['old'])} times")
    open(p,'w').write(s.replace(m['old'],m['new']))
    failed=[];notes=[]
    for it in range(40):
        r=sh('lake build 2>&1',work)
        errs=re.findall(r'error: (Verif/\S+?\.lean):(\d+):\d+: (.*)',r.stdout)
        if not errs:
            if 'build failed' in r.stdout or 'error' in r.stdout: return dict(error='build: '+r.stdout[-500:],failed=failed)
            break
        seen=set();prog=False
        # from bottom to top per file so that line numbers stay valid
        byf={}
        for f,l,msg in errs: byf.setdefault(f,set()).add(int(l)-1)
        for f,ls in byf.items():
            L=open(f'{work}/{f}').read().split('\n')
            starts=sorted({decl_start(L,l) for l in ls if decl_start(L,l) is not None},reverse=True)
            for st in starts:
                res=blank(f'{work}/{f}',st)
                if res is None: continue
                if res[0]=='OK': failed.append(f[6:-5]+':'+res[1]);prog=True
                else: notes.append(str(res))
        if not prog: return dict(error='stuck: '+str(errs[:3]),failed=failed,notes=notes)
    man=json.load(open(MAN))
    t='import Verif\nimport Lean\nopen Lean\n'
    names=[(c['property'],n) for c in man['claims'] for n in c['theorems']]
    t+='run_cmd do\n  for n in ['+', '.join('`'+n for _,n in names)+'] do\n    let ax ← Elab.Command.liftCoreM (collectAxioms n)\n    if ax.contains ``sorryAx then logInfo m!"BROKEN {n}"\n'
    open(work+'/Chk.lean','w').write(t)
    r=sh('lake env lean Chk.lean',work)
    br=set(re.findall(r'BROKEN (\S+)',r.stdout))
    if r.returncode: return dict(error='chk '+r.stdout[-500:],failed=failed)
    bp={}
    for pid,n in names:
        if n in br: bp.setdefault(pid,[]).append(n.split('.')[-1])
    return dict(failed=failed,broken=bp)
if __name__=='__main__':
    spec=json.load(open(sys.argv[1]));out=sys.argv[2];work=sys.argv[3] if len(sys.argv)>3 else '/tmp/mutwork/lean'
    done=set()
    if os.path.exists(out): done={json.loads(l)['id'] for l in open(out)}
    for m in spec:
        if m['id'] in done: continue
        r=run(m,work)
        r['id']=m['id'];r['expect']=m.get('expect',[])
        if 'broken' in r: r['missed']=[e for e in r['expect'] if e not in r['broken']]
        open(out,'a').write(json.dumps(r)+'\n')
        print(m['id'],r.get('error') or ('broken',sorted(r['broken']),'MISSED',r['missed']),flush=True)
