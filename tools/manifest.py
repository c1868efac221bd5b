import re,glob,json,os
thms={}
for f in sorted(glob.glob('/verif/lean/Verif/Props*.lean')):
    for m in re.finditer(r'^theorem (C\d\d+)_(\w+)',open(f).read(),re.M):
        thms.setdefault(m.group(1),[]).append('Verif.Props.%s_%s'%(m.group(1),m.group(2)))
ns={}
if os.path.exists('/tmp/w/notes.py'): exec(open('/tmp/w/notes.py').read(),ns)
notes=ns.get('notes',{}); partial=ns.get('partial',set()); na=ns.get('na',{})
claims=[]
for l in open('/verif/properties.jsonl'):
    p=json.loads(l)['id']
    if p in na: claims.append(dict(property=p,status='not_applicable',theorems=[],note=na[p]))
    elif p in thms:
        st='partial' if (p in partial or any(t.endswith('_partial') for t in thms[p])) else 'proved'
        claims.append(dict(property=p,status=st,theorems=thms[p],note=notes.get(p,'')))
json.dump({'claims':claims},open('/verif/MANIFEST.json','w'),indent=1)
print(len(claims),'claims',sum(c['status']=='proved' for c in claims),'proved')
