#!/usr/bin/env python3
"""automutate.py SECONDS [FILE...] : random small edits of model definitions that have no entry in seeded/LOG.jsonl yet.
Edits that do not compile are discarded. The build is stopped at the first theorem that fails; edits that survive are
written to /tmp/am/survivors.txt for inspection (equivalent program, or a claim that is too weak)."""
import json,subprocess,sys,os,re,shutil,random,glob,time
SRC='/verif/lean'; W='/tmp/am/lean'; LOG='/verif/seeded/LOG.jsonl'
random.seed(os.environ.get('SEED','1'))
END=time.time()+float(sys.argv[1]); FILES=sys.argv[2:]
MAXPER=int(os.environ.get('PER','2'))
def sync():
    os.makedirs('/tmp/am',exist_ok=True)
    shutil.rmtree(W,ignore_errors=True); subprocess.run(['cp','-a',SRC,W],check=True)
def defs(text):
    """(name, start, end) of definitions"""
    starts=[(m.start(),m.group(1)) for m in re.finditer(r'^(?:@\[[^\]]*\]\s*)?(?:def|abbrev) ([\w.\']+)',text,re.M)]
    marks=sorted([m.start() for m in re.finditer(r'^(?:/--|@\[|def |abbrev |theorem |structure |inductive |namespace |end |section|open |variable|instance|example|mutual|deriving|termination_by|decreasing_by)',text,re.M)]+[len(text)])
    for s,n in starts:
        e=next(x for x in marks if x>s)
        yield n,s,e
OPS=[(r' < ',' ≤ ','< becomes ≤'),(r' ≤ ',' < ','≤ becomes <'),(r' > ',' ≥ ','> becomes ≥'),(r' ≥ ',' > ','≥ becomes >'),
 (r' = (?!>)',' ≠ ','= becomes ≠'),(r' ≠ ',' = ','≠ becomes ='),(r' == ',' != ','== becomes !='),
 (r' \+ 1\b',' + 2','+ 1 becomes + 2'),(r' \+ 1\b','','+ 1 dropped'),(r' - 1\b','','- 1 dropped'),(r' \+ ',' - ','+ becomes -'),(r' - ',' + ','- becomes +'),
 (r' && ',' || ','&& becomes ||'),(r' \|\| ',' && ','|| becomes &&'),(r'\btrue\b','false','true becomes false'),(r'\bfalse\b','true','false becomes true'),
 (r' 0\b',' 1','0 becomes 1'),(r' 1\b',' 0','1 becomes 0'),(r'\.1\b','.2','.1 becomes .2'),(r'\.2\b','.1','.2 becomes .1'),
 (r'\bmin\b','max','min becomes max'),(r'\bmax\b','min','max becomes min'),(r'\bforward\b','backward','forward becomes backward'),(r'\bbackward\b','forward','backward becomes forward'),
 (r'\bsource\b','target','source becomes target'),(r'\btarget\b','source','target becomes source'),(r'\bhead\b','tail','head becomes tail'),(r'\btail\b','head','tail becomes head'),
 (r'\bnot\b|!(?=[\w(])','','negation dropped'),(r'\bif (?=[^\n]* then)','if ¬ ','condition negated'),
 (r'\n[ ]+let (\w+) ← [^\n]*(?=\n)','','statement dropped'),(r'\n[ ]+check [^\n]*(?=\n)','','check dropped'),(r'\n[ ]+let (\w+) := [^\n]*(?=\n)','','update dropped'),
 (r'\b(?!if\b|let\b|then\b|else\b|match\b|some\b|none\b|with\b|fun\b|do\b|def\b)([A-Za-z]\w*) (?!if\b|let\b|then\b|else\b|match\b|with\b|fun\b|do\b)([a-z]\w*) (?!if\b|let\b|then\b|else\b|match\b|with\b|fun\b|do\b)([a-z]\w*)\b',r'\1 \3 \2','arguments swapped'),
 (r'\.reverse\b','','reverse dropped'),(r' \+\+ ',' ++ [] ++ ','') ,]
OPS=[o for o in OPS if o[2]]
def candidates(text,s,e):
    body=text[s:e]
    i=body.find(':=') ; j=body.find('\n  |')
    b0=min([x for x in (i,j) if x>=0],default=0)
    for pat,rep,desc in OPS:
        for m in re.finditer(pat,body):
            if m.start()<b0: continue
            new=body[:m.start()]+m.expand(rep)+body[m.end():]
            if new!=body:
                ln=body[:m.start()+1].rstrip('\n').split('\n'); line=body.split('\n')[len(ln)-1 if not m.group(0).startswith('\n') else body[:m.start()].count('\n')+1].strip()
                yield new,desc+' in: '+line[:150]
def enclosing(path,line):
    L=open(path).read().split('\n')
    for i in range(min(line,len(L))-1,-1,-1):
        m=re.match(r'\s*(?:@\[[^\]]*\]\s*)?(?:private\s+)?(theorem|lemma|def|example|instance)\s*(\S*)',L[i])
        if m: return (m.group(2) if m.group(1)!='example' else 'example@%d'%(i+1))
    return '?'
def build(target,limit):
    p=subprocess.Popen(['nice','lake','build']+target,cwd=W,stdout=subprocess.PIPE,stderr=subprocess.STDOUT,text=True,start_new_session=True)
    err=None; out=[]
    t0=time.time()
    import threading
    killer=threading.Timer(limit,lambda:os.killpg(p.pid,15)); killer.start()
    for l in p.stdout:
        out.append(l)
        m=re.search(r'error: (Verif/\S+?\.lean):(\d+):',l)
        if m:
            err=(m.group(1),int(m.group(2)))
            break
    killer.cancel()
    if err:
        try: os.killpg(p.pid,15)
        except ProcessLookupError: pass
    rc=p.wait()
    return err,rc
def blocked(mod):
    deps={}
    for root,_,fs in os.walk(SRC+'/Verif'):
        for f in fs:
            q=os.path.join(root,f); k='Verif/'+os.path.relpath(q,SRC+'/Verif')[:-5]
            deps[k]=[x.replace('.','/') for x in re.findall(r'^import (Verif\S+)',open(q).read(),re.M)]
    memo={}
    def dep(k):
        if k not in memo:
            memo[k]=False; memo[k]= k==mod or any(dep(d) for d in deps.get(k,[]))
        return memo[k]
    return sorted(k.split('/')[-1] for k in deps if k.startswith('Verif/Props') and dep(k))
def main():
    sync()
    toks=set()
    for l in open(LOG):
        for t in re.findall(r"[\w.']+",str(json.loads(l).get('definition',''))): toks.add(t); toks.add(t.split('.')[-1])
    work=[]
    for f in sorted(glob.glob(W+'/Verif/Model/*.lean')):
        if FILES and os.path.basename(f)[:-5] not in FILES: continue
        for n,s,e in defs(open(f).read()):
            if n in toks or n.split('.')[-1] in toks: continue
            work.append((f,n))
    random.shuffle(work)
    for f,n in work:
        orig=open(f).read()
        d=[x for x in defs(orig) if x[0]==n]
        if not d: continue
        _,s,e=d[0]
        c=list(candidates(orig,s,e)); random.shuffle(c)
        done=0; seen=set()
        mod='Verif.Model.'+os.path.basename(f)[:-5]
        for new,desc in c[:12]:
            if done>=MAXPER or time.time()>END: break
            if new in seen: continue
            seen.add(new)
            open(f,'w').write(orig[:s]+new+orig[e:])
            err,rc=build([mod],200)
            if rc!=0 or err:
                open(f,'w').write(orig); continue
            err,rc=build([],1500)
            open(f,'w').write(orig)
            done+=1
            if err:
                nm=enclosing(os.path.join(W,err[0]),err[1])
                bl=blocked(err[0][:-5])
                rec={"definition":n,"file":"lean/"+os.path.relpath(f,W),"edit":desc,"breaks":"claims stated in "+', '.join('Props/'+b for b in bl),"outcome":"caught","failed":[nm],"blocked_property_files":bl,"tightened":[]}
                open(LOG,'a').write(json.dumps(rec,ensure_ascii=False)+'\n')
                print('CAUGHT',n,'|',desc,'->',err[0],nm,flush=True)
            else:
                rec={"definition":n,"file":"lean/"+os.path.relpath(f,W),"edit":desc,"breaks":"unknown (random edit)","outcome":"survived" if rc==0 else "no verdict: time limit","failed":[],"blocked_property_files":[],"tightened":[]}
                open(LOG,'a').write(json.dumps(rec,ensure_ascii=False)+'\n')
                print('SURVIVED' if rc==0 else 'TIMEOUT',n,'|',desc,flush=True)
                open('/tmp/am/survivors.txt','a').write(('SURVIVED' if rc==0 else 'TIMEOUT')+' '+os.path.basename(f)+' '+n+' | '+desc+'\n')
        if done==0: print('NONE',n,flush=True)
        if time.time()>END: break
main()
