import sys,json
# usage: addprop.py spec.json  {id,title,statement,quantifier,why,anchors,row}
d=json.load(open(sys.argv[1]))
p='/verif/tools/props.py'; s=open(p).read()
new='p(%s,\n  %s,\n  %s,\n  %s,\n  %s)\n'%tuple(json.dumps(d[k],ensure_ascii=False) for k in('title','statement','quantifier','why','anchors'))
s=s.replace("with open('/verif/properties.jsonl'",new+"with open('/verif/properties.jsonl'",1); open(p,'w').write(s)
p='/verif/DESIGN.md'; s=open(p).read()
prev='| C%02d |'%(int(d['id'][1:])-1)
row=[l for l in s.split('\n') if l.startswith(prev)][0]
s=s.replace(row,row+'\n| %s | %s |'%(d['id'],d['row']),1); open(p,'w').write(s)
