#!/usr/bin/env python3
# writes MANIFEST.json; theorem names are checked to occur in lean/Verif/Props
import json,re,glob,sys
claims=json.load(open('/verif/tools/claims.json'))
src=''.join(open(f).read() for f in glob.glob('/verif/lean/Verif/**/*.lean',recursive=True))
names=set(re.findall(r"theorem\s+(?:_root_\.FMV\.)?([\w.']+)",src))
out=[];bad=0
for c in claims:
    for t in c['theorems']:
        if t.replace('FMV.','') not in names: print('missing',c['property'],t); bad=1
    out.append(c)
have=set(t.replace('FMV.','') for c in claims for t in c['theorems'])
for n in sorted(names):
    if re.match(r'C\d\d_',n) and n not in have: print('unclaimed',n)
json.dump({"claims":out},open('/verif/MANIFEST.json','w'),indent=1)
sys.exit(bad)
