"""usage: add.py file ; the file defines PROPS (list of 5-tuples), PLAN, STATUS (dicts), VIOL (dict)."""
import sys
ns={"PROPS":[],"PLAN":{},"STATUS":{},"VIOL":{}}
exec(open(sys.argv[1]).read(),ns)
g='/tmp/gen/'
with open(g+'more.py','a') as f:
    for t in ns["PROPS"]:
        f.write("p(%r,\n  %r,\n  %r,\n  %r,\n  %r)\n"%t)
def app(fn,d):
    s=open(g+fn).read().rstrip()
    assert s.endswith('}')
    s=s[:-1].rstrip()
    for k,v in d.items():
        if not s.endswith(',') and not s.endswith('{'): s+=','
        s+="\n%r:%r"%(k,v)
    open(g+fn,'w').write(s+"\n}\n")
app('plan.txt',ns["PLAN"]); app('status.txt',ns["STATUS"])
with open(g+'viol.txt','a') as f:
    for k,v in ns["VIOL"].items(): f.write("%s|%s\n"%(k,v))
