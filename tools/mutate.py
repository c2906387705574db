#!/usr/bin/env python3
"""mutate.py MUTANTS.json : applies each mutant to a scratch copy of the Lean project and rebuilds.
Each mutant: {"file","def","old","new","edit","breaks"}. Appends every outcome to seeded/LOG.jsonl: caught, survived,
or invalid (the edited file itself does not compile, which says nothing about the theorems)."""
import json,subprocess,sys,os,re,shutil
SRC='/verif/lean'; W='/tmp/mut/lean'
def sync():
    os.makedirs('/tmp/mut',exist_ok=True)
    subprocess.run(['rsync','-a','--delete',SRC+'/',W+'/'],check=True) if shutil.which('rsync') else (
      shutil.rmtree(W,ignore_errors=True), subprocess.run(['cp','-a',SRC,W],check=True))
def enclosing(path,line):
    L=open(path).read().split('\n')
    for i in range(min(line,len(L))-1,-1,-1):
        m=re.match(r'\s*(?:@\[[^\]]*\]\s*)?(?:private\s+)?(theorem|lemma|def|example|instance)\s*(\S*)',L[i])
        if m: return (m.group(2) if m.group(1)!='example' else 'example@%d'%(i+1))
    return '?'
def log(m,outcome,failed,blocked):
    rec={"definition":m['def'],"file":"lean/Verif/"+m['file'],"edit":m['edit'],"breaks":m['breaks'],"outcome":outcome,
         "failed":failed,"blocked_property_files":blocked,"tightened":m.get('tightened',[])}
    open('/verif/seeded/LOG.jsonl','a').write(json.dumps(rec,ensure_ascii=False)+'\n')
def main():
    muts=json.load(open(sys.argv[1]))
    sync()
    for m in muts:
        p=os.path.join(W,'Verif',m['file']); orig=open(p).read()
        n=orig.count(m['old'])
        if n<1: print('NOT FOUND',m['def'],m['edit']); continue
        if n>1 and not m.get('all'): print('AMBIGUOUS',n,m['def'],m['edit']); continue
        open(p,'w').write(orig.replace(m['old'],m['new']))
        r=subprocess.run(['lake','build','Verif.'+m['file'][:-5].replace('/','.')],cwd=W,capture_output=True,text=True)
        if r.returncode!=0:
            open(p,'w').write(orig)
            print('INVALID',m['def'],'|',m['edit'],flush=True)
            log(m,'invalid: the edit does not compile',[],[])
            continue
        r=subprocess.run(['lake','build'],cwd=W,capture_output=True,text=True)
        out=r.stdout+r.stderr
        failed=[]
        for mm in re.finditer(r'error: (Verif/\S+?\.lean):(\d+):',out):
            nm=enclosing(os.path.join(W,mm.group(1)),int(mm.group(2)))
            if nm not in failed: failed.append(nm)
        # property files that cannot be built any more
        bad=set(re.findall(r'error: (Verif/\S+?)\.lean',out))
        open(p,'w').write(orig)
        blocked=[]
        if bad:
            deps={}
            for root,_,fs in os.walk(SRC+'/Verif'):
                for f in fs:
                    q=os.path.join(root,f); mod='Verif/'+os.path.relpath(q,SRC+'/Verif')[:-5]
                    deps[mod]=[x.replace('.','/') for x in re.findall(r'^import (Verif\S+)',open(q).read(),re.M)]
            def dep(mod,seen):
                return mod in bad or any(dep(d,seen) for d in deps.get(mod,[]))
            blocked=sorted(k.split('/')[-1] for k in deps if k.startswith('Verif/Props') and dep(k,set()))
        outcome='caught' if failed else 'survived' if r.returncode==0 else 'no verdict: the build failed without an error message'
        print(outcome.upper(),m['def'],'|',m['edit'],'->',failed,flush=True)
        log(m,outcome,failed,blocked)
main()
