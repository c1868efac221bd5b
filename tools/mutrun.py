import subprocess,re,sys,json,os,shutil,time
BASE='/tmp/w/mut/lean'; ORIG='/tmp/w/mut/orig'
def decls(text):
    # list of (startline, kind, name)
    out=[]
    for i,l in enumerate(text.split('\n'),1):
        m=re.match(r'\s*(?:@\[[^\]]*\]\s*)?(?:private\s+|protected\s+|noncomputable\s+)*(theorem|lemma|example|def|abbrev|inductive|structure|instance)\b\s*([^\s:({\[]*)',l)
        if m: out.append((i,m.group(1),m.group(2)))
    return out
def sorryfy(text,line):
    ds=decls(text); lines=text.split('\n')
    idx=max([k for k,d in enumerate(ds) if d[0]<=line],default=None)
    if idx is None: return text,None
    s,kind,name=ds[idx]
    if kind not in('theorem','lemma','example'): return text,('!'+kind+' '+name)
    # end: next line that starts at col 0 with nonspace and not '|' after s, preceded by...
    e=s
    while e<len(lines):
        l=lines[e]
        if l and not l[0].isspace() and not l.startswith('|') and not l.startswith('·') and not l.startswith(')'): break
        e+=1
    body='\n'.join(lines[s-1:e])
    d=0;pos=None
    for i,c in enumerate(body):
        if c in '([{⟨': d+=1
        elif c in ')]}⟩': d-=1
        elif d==0 and body.startswith(':=',i):
            ln=body[body.rfind('\n',0,i)+1:i]
            if re.match(r'\s*(let|have)\b',ln) : continue
            pos=i;break
        elif d==0 and re.match(r'\n  \| ',body[i:i+5]): pos=i;break
        elif d==0 and re.match(r' where\n',body[i:i+7]): pos=i;break
    if pos is None: return text,('!nobody '+name)
    new=body[:pos].rstrip()+' := by sorry'
    n_old=body.count('\n'); n_new=new.count('\n')
    return '\n'.join(lines[:s-1]+[new]+['']*(n_old-n_new)+lines[e:]),name or ('example@%d'%s)
def build(tgt):
    r=subprocess.run(['nice','lake','build',tgt],cwd=BASE,capture_output=True,text=True,timeout=3000)
    out=r.stdout+r.stderr
    errs=set()
    for m in re.finditer(r'^error: (?:\./)*(Verif/\w+\.lean):(\d+):\d+: (.*)',out,re.M): errs.add((m.group(1),int(m.group(2)),m.group(3)[:80]))
    return r.returncode,errs,out
def restore():
    for f in os.listdir(ORIG+'/Verif'):
        a,b=ORIG+'/Verif/'+f,BASE+'/Verif/'+f
        if not os.path.exists(b) or open(a).read()!=open(b).read(): shutil.copyfile(a,b)
def run(mut):
    restore()
    p=BASE+'/Verif/'+mut['file']; t=open(p).read()
    n=t.count(mut['old'])
    if n!=mut.get('n',1): return {'error':'old occurs %d times'%n}
    t=t.replace(mut['old'],mut['new']); open(p,'w').write(t)
    failed=[]; 
    for it in range(14):
        rc,errs,out=build('Verif.AxCheck')
        if not errs: break
        byf={}
        for f,l,msg in errs: byf.setdefault(f,set()).add(l)
        prog=False
        for f,ls in byf.items():
            q=BASE+'/'+f; t=open(q).read(); done=set()
            for l in sorted(ls):
                ds=decls(t); k=max([d[0] for d in ds if d[0]<=l],default=None)
                if k in done: continue
                done.add(k)
                t2,name=sorryfy(t,l)
                failed.append(f[6:-5]+':'+str(name))
                if t2!=t: prog=True
                t=t2
            open(q,'w').write(t)
        if not prog: return {'error':'stuck','errs':sorted(errs)[:5],'failed':failed}
    else: return {'error':'too many iterations','failed':failed}
    if rc!=0: return {'error':'build','out':out[-800:]}
    m=re.findall(r'SORRY (\S+)',out)
    return {'direct':failed,'affected':sorted(set(x.split('.')[-1] for x in m))}
if __name__=='__main__':
    muts=json.load(open(sys.argv[1])); outp=sys.argv[2]
    done=set()
    if os.path.exists(outp):
        done={json.loads(l)['key'] for l in open(outp)}
    for mu in muts:
        if mu['key'] in done: continue
        t0=time.time()
        try: r=run(mu)
        except Exception as ex: r={'error':repr(ex)}
        r.update(mu); r['secs']=int(time.time()-t0)
        open(outp,'a').write(json.dumps(r)+'\n')
