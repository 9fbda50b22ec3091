#!/usr/bin/env python3
import re,os,sys,json,random,subprocess,signal,time,glob
PR='/tmp/mut/auto/pristine'; W=os.environ.get('AUTO_W','/tmp/mut/auto/work')
OUT=os.environ.get('AUTO_OUT','/tmp/mut/auto/auto.jsonl')
def code_mask(t):
    m=[True]*len(t); i=0
    while i<len(t):
        if t.startswith('/-',i):
            d=1;j=i+2
            while d:
                if t.startswith('/-',j): d+=1;j+=2
                elif t.startswith('-/',j): d-=1;j+=2
                else: j+=1
            for k in range(i,j): m[k]=False
            i=j
        elif t.startswith('--',i):
            j=t.index('\n',i)
            for k in range(i,j): m[k]=False
            i=j
        else: i+=1
    return m
OPS=[(r'(?<![\w.])(\d+)(?!\w)(?!\.)',lambda m:str(int(m.group(1))+1)),
 (r'(?<![\w.])([2-9]|\d\d+)(?!\w)(?!\.)',lambda m:str(int(m.group(1))-1)),
 (r'≤',lambda m:'<'),(r' < ',lambda m:' ≤ '),(r' > ',lambda m:' ≥ '),(r'≥',lambda m:'>'),
 (r'(?<=if )([^:\n]*?) = ',lambda m:m.group(1)+' ≠ '),(r'≠',lambda m:'='),(r' == ',lambda m:' != '),(r'!=',lambda m:'=='),
 (r'∧',lambda m:'∨'),(r'∨',lambda m:'∧'),(r'&&',lambda m:'||'),(r'\|\|',lambda m:'&&'),
 (r'!(?=[a-zA-Z(])',lambda m:''),(r'\btrue\b',lambda m:'false'),(r'\bfalse\b',lambda m:'true'),
 (r'\.panic\b',lambda m:'.err .other'),(r'\.err \.\w+',lambda m:'.panic'),(r'\.err \(\.\w+ \w+\)',lambda m:'.panic'),
 (r'lit "([^"]*)"',lambda m:'lit "%s_"'%m.group(1)),(r' \+ ',lambda m:' - '),(r' - ',lambda m:' + '),
 (r'\.int\b',lambda m:'.uint'),(r'\.uint\b',lambda m:'.int'),(r'\.bytes\b',lambda m:'.string'),(r'\.string\b',lambda m:'.bytes'),
 (r'\.array\b',lambda m:'.fixedArray'),(r'\binputs\b',lambda m:'outputs'),(r'\boutputs\b',lambda m:'inputs'),
 (r'\btake\b',lambda m:'drop'),(r'\bdrop\b',lambda m:'take'),(r'\.reverse\b',lambda m:''),
 (r"'(\S)'",lambda m:"'~'"),(r'\.isSome\b',lambda m:'.isNone'),(r'\bindexed\b',lambda m:'anonymous'),
 (r'\.isEmpty\b',lambda m:'.isEmpty.not'),(r'\bsome\b',lambda m:'none'),(r'getD (\w+)',lambda m:'getD default'),
 (r'\.debug\b',lambda m:'.release'),(r'\.release\b',lambda m:'.debug'),
 (r'(\w+) \+\+ (\w+)',lambda m:m.group(2)+' ++ '+m.group(1)),(r' \+\+ (\w+)(?![\w.(])',lambda m:''),(r' \+\+ \[[^\]]*\]',lambda m:''),
 (r'\.name\b',lambda m:'.kind'),(r'\.1\b',lambda m:'.2'),(r'\.2\b',lambda m:'.1'),(r'\* ',lambda m:'+ '),(r' / ',lambda m:' % '),(r' % ',lambda m:' / '),
]
def gen():
    ms=[]
    for f in sorted(glob.glob(PR+'/Verif/Model/*.lean')):
        t=open(f).read(); mask=code_mask(t)
        for k,(p,r) in enumerate(OPS):
            for m in re.finditer(p,t):
                if not all(mask[m.start():m.end()]): continue
                ls=t.rfind('\n',0,m.start())+1; line=t[ls:t.find('\n',m.start())]
                if line.startswith(('import','open','namespace','end','inductive','structure','deriving')): continue
                new=r(m)
                if new==m.group(0): continue
                nt=t[:m.start()]+new+t[m.end():]
                le=nt.find('\n',ls)
                ms.append(dict(file=os.path.basename(f),pos=m.start(),end=m.end(),new=new,line=t.count('\n',0,m.start())+1,old_line=line.strip(),new_line=nt[ls:le].strip(),op=k))
    return ms
def decl_at(path,ln):
    ls=open(path).read().split('\n')
    for i in range(ln-1,-1,-1):
        m=re.match(r'(?:@\[.*?\] ?)?(?:private )?(theorem|example|def|lemma|instance|abbrev)\s*(\S*)',ls[i])
        if m: return m.group(1),m.group(2)
    return '',''
def sync():
    if not os.path.exists(W): subprocess.run(['cp','-a',PR,W],check=True); return
    a={};b={}
    for root,d in ((PR,a),(W,b)):
        for dp,_,fs in os.walk(root):
            for f in fs:
                p=os.path.join(dp,f); s=os.stat(p); d[os.path.relpath(p,root)]=(s.st_size,s.st_mtime_ns)
    for f in b:
        if f not in a: os.remove(os.path.join(W,f))
    for f in a:
        if b.get(f)!=a[f]: subprocess.run(['cp','-a',os.path.join(PR,f),os.path.join(W,f)],check=True)
def run(m):
    sync()
    p=W+'/Verif/Model/'+m['file']; t=open(p).read()
    open(p,'w').write(t[:m['pos']]+m['new']+t[m['end']:])
    pr=subprocess.Popen('lake build 2>&1',shell=True,cwd=W,stdout=subprocess.PIPE,text=True,preexec_fn=os.setsid)
    res='survived'; info=[]; t0=time.time(); weird=0
    try:
        for l in pr.stdout:
            if 'failed to create thread' in l or 'code 137' in l or 'out of memory' in l: weird=1
            e=re.match(r'error: (Verif/\S+\.lean):(\d+):',l)
            if e:
                if '/Model/' in e.group(1): res='stillborn'; info=[e.group(1)]; break
                k,n=decl_at(W+'/'+e.group(1),int(e.group(2)))
                res='killed'; info=[e.group(1),k,n]; break
    finally:
        try: os.killpg(pr.pid,signal.SIGKILL)
        except ProcessLookupError: pass
        pr.wait()
    if weird and res=='survived': res='weird'
    return dict(m,result=res,info=info,secs=round(time.time()-t0))
if __name__=='__main__':
    ms=gen(); random.Random(7).shuffle(ms)
    if len(sys.argv)>1 and sys.argv[1]=='list':
        print(len(ms)); from collections import Counter; print(Counter(m['file'] for m in ms)); sys.exit()
    k,n=int(sys.argv[1]),int(sys.argv[2])
    done=set()
    for f in glob.glob('/tmp/mut/auto/auto*.jsonl'):
        for l in open(f): d=json.loads(l); done.add((d['file'],d['pos'],d['new']))
    for i,m in enumerate(ms):
        if i%n!=k or (m['file'],m['pos'],m['new']) in done: continue
        while os.path.exists('/tmp/mut/auto/pause'): time.sleep(5)
        r=run(m)
        with open(OUT,'a') as o: o.write(json.dumps(r,ensure_ascii=False)+'\n')
