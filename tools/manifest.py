# Generates /verif/MANIFEST.json (run from /verif).
import json
C=[]
def c(p,status,theorems,note=""):
    C.append(dict(property=p,status=status,theorems=theorems,note=note))
exec(open("tools/claims.py").read())
json.dump(dict(claims=C),open("MANIFEST.json","w"),indent=1)
print(len(C))
