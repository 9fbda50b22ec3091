#!/usr/bin/env python3
# usage: mutqi.py SRC DEPS DST BATCH IDS...
import sys,json,os,re,shutil,subprocess,glob,time
SRC,DEPS,DST=sys.argv[1:4]
os.environ['MUT_SRC']=SRC; os.environ['MUT_DST']=DST
sys.path.insert(0,'/verif/tools')
import mutate as M
M.SRC=SRC; M.DST=DST
deps={}
for l in open(DEPS):
    n,cs=l.rstrip('\n').split('\t'); deps[n]=set(cs.split(' '))
claimmods={}
for f in glob.glob(SRC+'/Verif/Props/*.lean'):
    for n in re.findall(r'(?m)^theorem (C\d\d\d?)\w*',open(f).read()): claimmods.setdefault(n,set()).add('Verif.Props.'+os.path.basename(f)[:-5])
def brk(failed):
    broken=set()
    for fd in failed:
        if ':' not in fd: continue
        f,d=fd.split(':',1)
        d=d.replace('STUCK:','')
        mod='Verif.'+f[:-5].replace('/','.')
        for n,cs in deps.items():
            if n==d or any(c.startswith(mod+':') and c.split(':',1)[1].removesuffix('._f').split('.')[-1]==d.split('.')[-1] for c in cs): broken.add(n)
    return broken
def go(m):
    shutil.rmtree(DST,ignore_errors=True); subprocess.run(['cp','-a',SRC,DST],check=True)
    p=os.path.join(DST,'lakefile.toml'); t=open(p).read()
    open(p,'w').write(t.replace('[[lean_lib]]','[[lean_lib]]\nweakLeanArgs = ["--memory=5000"]',1))
    for ed in m.get('edits',[m]):
        p=os.path.join(DST,'Verif',ed['file']); t=open(p).read()
        assert t.count(ed['old'])==1,(m['id'],t.count(ed['old']))
        open(p,'w').write(t.replace(ed['old'],ed['new']))
    failed=[]; built=False; out=''; oom=set(); tries=0
    tgt=' '.join(sorted(claimmods[m['claim']]))
    for it in range(30):
        out=M.run('ulimit -v 24000000; lake build %s 2>&1'%tgt,2400)
        if 'failed to create thread' in out or 'code 137' in out:
            tries+=1
            if tries<6: continue
        if out=='TIMEOUT': failed.append('UNKNOWN TIMEOUT'); break
        if 'Build completed successfully' in out: built=True; break
        errs={}
        for f,l in re.findall(r'(?m)^error: (Verif/\S+\.lean):(\d+):\d+:',out): errs.setdefault(f,set()).add(int(l))
        if not errs:
            mods=re.findall(r'(?m)^- (Verif\.\S+)',out)
            new=[x for x in mods if x not in oom]
            if not new: failed.append('UNKNOWN '+out[-200:]); break
            for x in new:
                oom.add(x); f=x.replace('.','/')+'.lean'
                ls=[i+1 for i,s in enumerate(open(os.path.join(DST,f)).read().split('\n')) if s.startswith('example')]
                if ls: failed+=[(f[6:]+':'+d) for d in M.sorry_at(os.path.join(DST,f),ls)]
            continue
        bad=False
        for f,ls in errs.items():
            if f.startswith('Verif/Model') or f.startswith('Verif/Spec'): bad=True; failed.append('MODEL '+f+str(ls)); continue
            failed+=[(f[6:]+':'+d) for d in M.sorry_at(os.path.join(DST,f),sorted(ls))]
        if bad: break
        b=brk(failed)
        if any(x.startswith(m['claim']+'_') for x in b): built=True; break
        if any('STUCK' in x or 'DEF:' in x for x in failed): break
    r={'id':m['id'],'built':built,'mode':'iter','failed_decls':failed,'broken':sorted(brk(failed))}
    if not built: r['out']=out[-600:]
    return r
ms=json.load(open(sys.argv[4])); ids=sys.argv[5:]
for m in ms:
    if ids and m['id'] not in ids: continue
    t0=time.time()
    try: r=go(m)
    except Exception as ex: r={'id':m['id'],'exception':repr(ex)}
    r['claim']=m.get('claim'); r['secs']=round(time.time()-t0)
    print(json.dumps(r,ensure_ascii=False),flush=True)
