#!/usr/bin/env python3
import sys,json,os,re,shutil,subprocess
sys.path.insert(0,'/verif/tools')
os.environ.setdefault('MUT_SRC','/tmp/mut/src12')
import mutate as M
deps={}
for l in open('/tmp/mut/deps12.tsv'):
    n,cs=l.rstrip('\n').split('\t'); deps[n]=set(cs.split(' '))
import glob,time
claimmods={}
for f in glob.glob('/tmp/mut/src12/Verif/Props/*.lean'):
    for n in re.findall(r'(?m)^theorem (C\d\d\d?)\w*',open(f).read()): claimmods.setdefault(n,set()).add('Verif.Props.'+os.path.basename(f)[:-5])
def quick(m, full=False):
    DST=M.DST
    shutil.rmtree(DST,ignore_errors=True); subprocess.run(['cp','-a',M.SRC,DST],check=True)
    p=os.path.join(DST,'Verif.lean'); t=open(p).read()
    open(p,'w').write(re.sub(r'(?m)^import Verif\.Tests\..*\n','',t))
    p=os.path.join(DST,'lakefile.toml'); t=open(p).read()
    open(p,'w').write(t.replace('[[lean_lib]]','[[lean_lib]]\nweakLeanArgs = ["--memory=6000"]',1))
    for ed in m.get('edits',[m]):
        p=os.path.join(DST,'Verif',ed['file']); t=open(p).read()
        assert t.count(ed['old'])==1,(m['id'],t.count(ed['old']))
        open(p,'w').write(t.replace(ed['old'],ed['new']))
    for it in range(5):
        tgt='' if full else ' '.join(sorted(claimmods[m['claim']]))
        out=M.run('ulimit -v 24000000; lake build %s 2>&1'%tgt,3600)
        if 'failed to create thread' in out or 'code 137' in out: continue
        break
    if 'Build completed successfully' in out: return {'id':m['id'],'built':True,'mode':'quick','failed_decls':[],'broken':[]}
    errs={}
    for f,l in re.findall(r'(?m)^error: (Verif/\S+\.lean):(\d+):\d+:',out): errs.setdefault(f,set()).add(int(l))
    failed=[]
    for f,ls in errs.items():
        failed+=[(f[6:]+':'+d) for d in M.sorry_at(os.path.join(DST,f),sorted(ls))]
    broken=set()
    for fd in failed:
        f,d=fd.split(':',1)
        mod='Verif.'+f[:-5].replace('/','.')
        for n,cs in deps.items():
            if any(c.startswith(mod+':') and (c.split(':',1)[1].split('.')[-1]==d.split('.')[-1]) for c in cs): broken.add(n)
    r={'id':m['id'],'built':not any('MODEL' in x or x.startswith('Model') or x.startswith('Spec') for x in failed) and bool(failed),'mode':'quick','failed_decls':failed,'broken':sorted(broken)}
    if not r['built']: r['out']=out[-600:]
    return r
if __name__=='__main__':
    ms=json.load(open(sys.argv[1])); ids=sys.argv[2:]
    for m in ms:
        if ids and m['id'] not in ids: continue
        t0=time.time()
        try:
            r=quick(m)
            if not any(b.startswith(m['claim']+'_') for b in r['broken']) and r['built']:
                r2=M.attempt(m); r2['mode']='full'; r=r2
        except Exception as ex: r={'id':m['id'],'exception':repr(ex)}
        r['claim']=m.get('claim'); r['secs']=round(time.time()-t0)
        print(json.dumps(r,ensure_ascii=False),flush=True)
