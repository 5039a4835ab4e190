#!/usr/bin/env python3
# usage: run.py mutants.json  -- list of {file, old, new, definition, edit, claim}
import json,sys,subprocess,re,os,shutil,time
SRC='/verif/lean'; DST='/tmp/seed/lean'
muts=json.load(open(sys.argv[1]))
out=sys.argv[2]
def sync():
    subprocess.run(['rsync','-a','--delete','--exclude','.lake',SRC+'/Verif',SRC+'/Verif.lean',DST+'/'],check=False) if shutil.which('rsync') else subprocess.run(f'rm -rf {DST}/Verif && cp -rp {SRC}/Verif {DST}/Verif && cp -p {SRC}/Verif.lean {DST}/',shell=True,check=True)
def thm(f,line):
    L=open(f).read().split('\n')[:line]
    for l in reversed(L):
        m=re.match(r'\s*(?:@\[.*?\]\s*)?(?:private |protected |noncomputable )*(theorem|lemma|def|instance|example|structure|abbrev)\s*([^\s:({\[]*)',l)
        if m: return m.group(2) or m.group(1)
    return '?'
for m in muts:
    sync()
    p=f'{DST}/Verif/'+m['file']
    s=open(p).read()
    if s.count(m['old'])!=1:
        print('BAD MUTANT',m['definition'],s.count(m['old'])); continue
    open(p,'w').write(s.replace(m['old'],m['new']))
    t=time.time()
    r=subprocess.run(['lake','build'],cwd=DST,capture_output=True,text=True,timeout=3000)
    txt=r.stdout+r.stderr
    fails=[]
    for mm in re.finditer(r'error: (Verif/\S+\.lean):(\d+):\d+',txt):
        n=thm(DST+'/'+mm.group(1),int(mm.group(2)))
        k=mm.group(1)[6:-5]+': '+n
        if k not in fails: fails.append(k)
    rec=dict(definition=m['definition'],edit=m['edit'],claim_broken=m['claim'],theorems_failed=fails,killed=bool(fails),theorems_tightened=[])
    print(json.dumps(rec),flush=True)
    open(out,'a').write(json.dumps(rec)+'\n')
