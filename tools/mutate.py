#!/usr/bin/env python3
"""Try the theorems against wrong programs.

usage: mutate.py MUTATIONS.json [ID ...]

Each mutation replaces `old` by `new` in a model file of a scratch copy of lean/.  Declarations whose proof then fails are
replaced by `sorry` until the copy builds; the theorems of Props/ that depend on `sorryAx` are the ones that failed.
`witness` (optional) is Lean text that is checked against the mutated model: a concrete instance of the claim that is false.
Results are printed as JSON lines.
"""
import json, os, re, shutil, subprocess, sys
SRC=os.environ.get('MUT_SRC','/verif/lean'); DST=os.environ.get('MUT_DST','/tmp/mut/lean')

def run(cmd, timeout=2400):
    try:
        r=subprocess.run(cmd,cwd=DST,shell=True,capture_output=True,text=True,timeout=timeout)
        return r.stdout+r.stderr
    except subprocess.TimeoutExpired:
        return 'TIMEOUT'

def body_start(text, i):
    """index of the `:=` or first `|` after the declaration keyword at i, at bracket depth 0"""
    depth=0; j=i; lets=0
    while j<len(text):
        c=text[j]
        if text.startswith('--',j):
            j=text.index('\n',j); continue
        if c=="'" and text[j+2:j+3]=="'":
            j+=3; continue
        if c=='"':
            j+=1
            while text[j]!='"':
                j+= 2 if text[j]=='\\' else 1
        elif c in '([{⟨': depth+=1
        elif c in ')]}⟩': depth-=1
        elif depth==0 and re.match(r'\blet ',text[j:j+4]) and not text[j-1].isalnum(): lets+=1
        elif depth==0 and text.startswith(':=',j):
            if lets==0: return j
            lets-=1
        elif depth==0 and text.startswith('\n  | ',j): return j
        j+=1
    return None

DECL=re.compile(r'(?m)^(?:@\[[^\]]*\] )?(?:private )?(theorem|lemma|example|def|instance|abbrev|inductive|structure|mutual|end|namespace|open|section|variable|set_option|/--|/-!|#)')
def sorry_at(path, lines):
    text=open(path).read()
    starts=[(m.start(),m.group(1)) for m in DECL.finditer(text)]
    offs=[0]
    for l in text.split('\n'): offs.append(offs[-1]+len(l)+1)
    targets={}
    for ln in lines:
        o=offs[ln-1]
        prev=[k for k,(s,_) in enumerate(starts) if s<=o]
        k=prev[-1]
        while k>=0 and starts[k][1] not in ('theorem','lemma','example','def','instance','abbrev','mutual'): k-=1
        # an error reported on the docstring or on `mutual` belongs to the next declaration
        if starts[prev[-1]][1] in ('/--','mutual','/-!'):
            k=prev[-1]
            while starts[k][1] not in ('theorem','lemma','example','def'): k+=1
        targets[k]=1
    done=[]
    for k in sorted(targets,reverse=True):
        s,kind=starts[k]
        e=starts[k+1][0] if k+1<len(starts) else len(text)
        if kind not in ('theorem','lemma','example'):
            done.append('DEF:'+text[s:s+60].split('\n')[0]); continue
        b=body_start(text,s)
        name=re.match(r'(?:@\[[^\]]*\] )?(?:private )?\w+ (\S+)',text[s:]).group(1)
        if text[b:e].strip() in (':= sorry',): done.append('STUCK:'+name)
        text=text[:b]+' := sorry\n\n'+text[e:]
        done.append(name if kind!='example' else 'example')
    open(path,'w').write(text)
    return done

def attempt(m):
    shutil.rmtree(DST,ignore_errors=True); subprocess.run(['cp','-a',SRC,DST],check=True)
    # the tests are not theorems
    p=os.path.join(DST,'Verif.lean'); t=open(p).read()
    open(p,'w').write(re.sub(r'(?m)^import Verif\.Tests\..*\n','',t))
    # a proof that runs out of memory is a proof that fails (weak arguments do not invalidate build products)
    p=os.path.join(DST,'lakefile.toml'); t=open(p).read()
    open(p,'w').write(t.replace('[[lean_lib]]','[[lean_lib]]\nweakLeanArgs = ["--memory=6000"]',1))
    for ed in m.get('edits',[m]):
        p=os.path.join(DST,'Verif',ed['file']); t=open(p).read()
        assert t.count(ed['old'])==1,(m['id'],t.count(ed['old']))
        open(p,'w').write(t.replace(ed['old'],ed['new']))
    failed=[]; ok=False
    for it in range(25):
        out=run('ulimit -v 24000000; lake build 2>&1')
        errs={}
        for f,l in re.findall(r'(?m)^error: (Verif/\S+\.lean):(\d+):\d+:',out): errs.setdefault(f,set()).add(int(l))
        if not errs:
            if 'failed to create thread' in out or 'code 137' in out: continue
            ok='Build completed successfully' in out
            if not ok: failed.append('UNKNOWN '+out[-300:])
            break
        for f,ls in errs.items():
            if f.startswith('Verif/Model'):
                failed.append('MODEL '+f+str(ls)); 
            failed+= [(f[6:]+':'+d) for d in sorry_at(os.path.join(DST,f),sorted(ls))]
        if any('STUCK' in x or 'MODEL' in x or 'DEF:' in x for x in failed): break
    broken=[]
    if ok:
        names=[]
        d=os.path.join(DST,'Verif/Props')
        for f in sorted(os.listdir(d)): names+=re.findall(r'(?m)^theorem (C\d\d\w*)',open(os.path.join(d,f)).read())
        ax=os.path.join(DST,'Ax.lean')
        open(ax,'w').write('import Verif\nopen Ethabi.Props\n'+''.join(f'#print axioms {n}\n' for n in names))
        out=run('lake env lean Ax.lean')
        for part in out.split("'Ethabi.Props.")[1:]:
            if 'sorryAx' in part: broken.append(part.split("'")[0])
    wit=None
    if 'witness' in m:
        w=os.path.join(DST,'Wit.lean')
        open(w,'w').write('import Verif\nopen Ethabi Ethabi.Props Ethabi.Spec\n'+m['witness']+'\n')
        out=run('lake env lean Wit.lean')
        wit='confirmed' if 'error' not in out else 'NOT CONFIRMED: '+out[:600]
    return {'id':m['id'],'built':ok,'failed_decls':failed,'broken':broken,'witness':wit}

if __name__=='__main__':
    ms=json.load(open(sys.argv[1])); ids=sys.argv[2:]
    for m in ms:
        if ids and m['id'] not in ids: continue
        try: r=attempt(m)
        except Exception as ex: r={'id':m['id'],'exception':repr(ex)}
        r['claim']=m.get('claim')
        print(json.dumps(r,ensure_ascii=False),flush=True)
