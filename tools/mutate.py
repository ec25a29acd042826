#!/usr/bin/env python3
"""Apply one edit to a scratch copy of the model, rebuild, and report what fails.
usage: mutate.py MUTATIONS.json   (list of {def, file, old, new, edit, breaks})
The scratch copy is /tmp/mut/lean (a copy of /verif/lean with its build products)."""
import json,sys,subprocess,re,os,shutil
SRC='/verif/lean'; DST=os.environ.get('MUTDST','/tmp/mut/lean')
LOG='/verif/seeded/LOG.jsonl'
def sync():
    want=set()
    for d,ds,fs in os.walk(SRC):
        if '.lake' in ds: ds.remove('.lake')
        for f in fs:
            a=os.path.join(d,f); r=os.path.relpath(a,SRC); b=os.path.join(DST,r); want.add(r)
            if not os.path.exists(b) or open(a,'rb').read()!=open(b,'rb').read():
                os.makedirs(os.path.dirname(b),exist_ok=True); shutil.copyfile(a,b)
    for d,ds,fs in os.walk(DST):
        if '.lake' in ds: ds.remove('.lake')
        for f in fs:
            b=os.path.join(d,f)
            if os.path.relpath(b,DST) not in want: os.remove(b)
def names(path):
    out=[]
    for n,l in enumerate(open(path),1):
        m=re.match(r'\s*(?:private |protected |noncomputable )*(?:theorem|lemma|def|instance|example|structure|inductive)\s*([^\s:({\[]*)',l)
        if m: out.append((n,m.group(1) or 'example'))
    return out
def run(m):
    sync()
    f=DST+'/Verif/'+m['file']
    t=open(f).read()
    if t.count(m['old'])!=1:
        return None,'old text found %d times'%t.count(m['old'])
    open(f,'w').write(t.replace(m['old'],m['new']))
    r=subprocess.run(['lake','build'],cwd=DST,capture_output=True,text=True)
    o=r.stdout+r.stderr
    failed={}
    for mm in re.finditer(r'error: (Verif/[^:]+):(\d+):\d+',o):
        p,l=mm.group(1),int(mm.group(2))
        nm='?'
        for n,x in names(DST+'/'+p):
            if n<=l: nm=x
        failed.setdefault(p,[])
        if nm not in failed[p]: failed[p].append(nm)
    dep=re.findall(r'^- (Verif\.\S+)',o,re.M)
    return failed,dep
def main():
    muts=json.load(open(sys.argv[1]))
    for m in muts:
        failed,dep=run(m)
        if failed is None:
            print('!!',m['def'],m['edit'],dep); continue
        fl=['%s: %s'%(p,x) for p in failed for x in failed[p]]
        print('OK ' if fl else 'SURVIVED',m['def'],'|',m['edit'],'|',fl[:6])
        sys.stdout.flush()
        m['_failed']=fl
        json.dump(muts,open(sys.argv[1]+'.res','w'),indent=1)
        if '--log' in sys.argv and fl:
            with open(LOG,'a') as g:
                g.write(json.dumps({"definition":m['def'],"file":m['file'],"edit":m['edit'],"claim_broken":m['breaks'],"theorems_failed":fl,"theorems_tightened":m.get('tightened',[])})+'\n')
    sync()
main()
