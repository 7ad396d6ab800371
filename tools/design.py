import json
P=[json.loads(l) for l in open('/verif/properties.jsonl')]
plan=eval(open('/tmp/gen/plan.txt').read())
head=open('/tmp/gen/design_head.md').read()
tail=open('/tmp/gen/design_tail.md').read()
v=''.join('- **%s**: %s\n'%tuple(l.strip().split('|',1)) for l in open('/tmp/gen/viol.txt') if l.strip())
tail=tail.replace('(Filled in as the proofs proceed; each entry has a machine-checked witness theorem.)','Each entry has a machine-checked witness theorem, named in parentheses.\n\n'+v)
out=head+"\n## Per-property plan\n\n"
for q in P:
    out+=f"- **{q['id']} {q['title']}.** {plan.get(q['id'],'(to be planned)')}\n"
out+="\n"+tail
open('/verif/DESIGN.md','w').write(out)
