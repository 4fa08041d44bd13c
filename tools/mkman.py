import json,re,glob
m={}
for f in sorted(glob.glob('/verif/lean/Verif/Props/*.lean')):
    t=open(f).read()
    for n in re.findall(r'^theorem (C(\d\d)_\w+)',t,re.M):
        m.setdefault('C'+n[1],[]).append('Verif.'+n[0])
notes=json.load(open('/verif/notes.json')) if __import__('os').path.exists('/verif/notes.json') else {}
claims=[]
for l in open('/verif/properties.jsonl'):
    i=json.loads(l)['id']
    if i in m or i in notes:
        n=notes.get(i,{})
        st=n.get('status') or ('partial' if any(x.endswith('_partial') for x in m[i]) else 'proved')
        claims.append({'property':i,'status':st,'theorems':m.get(i,[]),'note':n.get('note','')})
json.dump({'claims':claims},open('/verif/MANIFEST.json','w'),indent=1)
