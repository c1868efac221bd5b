#!/usr/bin/env python3
# DESIGN.md from design_tmpl.md, design_how.json, properties.jsonl and `#print axioms` of all theorems of the manifest
import json,subprocess,re
V='/verif/'
t=open(V+'tools/design_tmpl.md').read()
P=[json.loads(l) for l in open(V+'properties.jsonl')]
M={c['property']:c for c in json.load(open(V+'MANIFEST.json'))['claims']}
how=json.load(open(V+'tools/design_how.json'))
h=''
for p in P:
    c=M[p['id']]
    h+='* **%s %s** (%s). %s%s\n'%(p['id'],p['title'],c['status'],how[p['id']],(' *Result:* '+c['note']) if c['note'] else '')
T=[x for c in M.values() for x in c['theorems']]
open('/tmp/ax.lean','w').write('import Verif\n'+''.join('#print axioms %s\n'%x for x in T))
o=subprocess.run(['lake','env','lean','/tmp/ax.lean'],cwd=V+'lean',capture_output=True,text=True).stdout
o=re.sub(r'\n\s+',' ',o)
g={}
for x in T:
    m=re.search(r"'%s' (depends on axioms: \[(.*?)\]|does not depend on any axioms)"%re.escape(x),o)
    g.setdefault(', '.join(sorted(a.strip() for a in (m.group(2) or '').split(',') if a.strip())) or 'none',[]).append(x.replace('Verif.Props.',''))
a=''
for k in sorted(g):
    assert set(k.replace('none','').split(', '))<= {'','propext','Quot.sound','Classical.choice'},k
    a+='* %s (%d): %s\n'%(k,len(g[k]),', '.join(g[k]))
open(V+'DESIGN.md','w').write(t.replace('@@HOW@@',h).replace('@@AXIOMS@@',a))
print({k:len(v) for k,v in g.items()})
