import json,os
tight={'t04':['Verif.Props.C33_supported_types (was about the specification of the message table, now about the table of the model)'],
'p24':['model: rxBundle now goes through Buf.decodeHeader, so that Verif.Props.C24_bundle_reception, C25_receive_loop_ends and C26_* depend on it'],
'e02':['Verif.Props.C32_transmitted (new: the response that is sent has the sequence number octets of the request)']}
notes={'p23':'C32 fails as it should; C33 is about osmo_pfcp_msgtype_is_response() itself and is still true of the edited program.',
't04':'C33 survived: it was stated about the specification.','p24':'C24 survived: the receive loop of the model did not use Buf.decodeHeader.',
'e02':'C32 survived: it was about allocation only.'}
try: ex=json.load(open('/tmp/w/lognotes.json')); tight.update(ex.get('tight',{})); notes.update(ex.get('notes',{}))
except FileNotFoundError: pass
out=[];seen=set()
for f in ['res1.jsonl','res2.jsonl','res3.jsonl','res4.jsonl','res5.jsonl','res6.jsonl']:
    if not os.path.exists(f): continue
    for l in open(f):
        r=json.loads(l)
        if 'error' in r: continue
        cs=[t for t in r['affected'] if t[:1]=='C' and t[1:3].isdigit() and '_' in t]
        o={'definition':r['defn'],'file':'lean/Verif/'+r['file'],'edit':{'from':r['old'],'to':r['new']},'claim':r['claim'],
           'proofs_broken_directly':r['direct'],
           'theorems_failed':['Verif.Props.'+t for t in cs],'theorems_tightened':tight.get(r['key'],[])}
        if r['key'] in notes: o['note']=notes[r['key']]
        out.append(o)
open('/verif/seeded/LOG.jsonl','w').write(''.join(json.dumps(o,ensure_ascii=False)+'\n' for o in out))
print(len(out), sum(1 for o in out if not o['theorems_failed']))
for o in out:
    if not o['theorems_failed']: print(o['definition'],o['claim'])
