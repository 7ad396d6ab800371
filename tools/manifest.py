import json,re,glob,collections
P=[json.loads(l) for l in open('/verif/properties.jsonl')]
st=eval(open('/tmp/gen/status.txt').read())
thms=collections.defaultdict(list)
for f in sorted(glob.glob('/verif/lean/Verif/Props/*.lean')):
    ns=[]
    for line in open(f):
        m=re.match(r'namespace (\S+)',line)
        if m: ns.append(m.group(1))
        m=re.match(r'end (\S+)',line)
        if m and ns and ns[-1]==m.group(1): ns.pop()
        m=re.match(r'(?:@\[.*\] )?theorem (C(\d+)_\S+)',line)
        if m: thms['C'+m.group(2)].append('.'.join(ns+[m.group(1)]))
claims=[]
missing=[]
for q in P:
    i=q['id']
    t=thms.get(i,[])
    if i in st:
        s,n=st[i]
    elif t: s,n='?',''
    else: s,n=None,None
    if s is None or s=='?': missing.append((i,len(t)))
    if s is None: continue
    claims.append(dict(property=i,status=s,theorems=t,note=n))
json.dump({"claims":claims},open('/verif/MANIFEST.json','w'),indent=1,ensure_ascii=False)
print(len(claims),'claims',sum(c['status']=='proved' for c in claims),'proved; theorems',sum(len(c['theorems']) for c in claims),'missing',missing)
