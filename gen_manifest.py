#!/usr/bin/env python3
# Regenerates MANIFEST.json: every theorem `Cnn_*` in namespace VibeCol is attached to property Cnn;
# the notes and extra theorems are in the tables below.
import json,re,glob
NOTE={}
EXTRA={}
STATUS={}
exec(open("/verif/manifest_notes.py").read())
props=[json.loads(l)["id"] for l in open("/verif/properties.jsonl")]
T={p:[] for p in props}
for f in sorted(glob.glob("/verif/lean/Verif/Props/*.lean")):
    txt=open(f).read()
    ns=re.search(r"^namespace (\S+)",txt,re.M).group(1)
    for m in re.finditer(r"^theorem\s+((C\d\d)_\w+)",txt,re.M):
        T[m.group(2)].append(ns+"."+m.group(1))
claims=[]
for p in props:
    th=T[p]+["VibeCol."+x for x in EXTRA.get(p,[])]
    st=STATUS.get(p, "proved" if th else "not_applicable")
    if st=="proved" and any(t.endswith("_partial") for t in th): st="partial"
    claims.append(dict(property=p,status=st,theorems=th,note=NOTE.get(p,"")))
json.dump({"claims":claims},open("/verif/MANIFEST.json","w"),indent=1)
print([ (c["property"],c["status"],len(c["theorems"])) for c in claims])
