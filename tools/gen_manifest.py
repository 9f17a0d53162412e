#!/usr/bin/env python3
"""Regenerates MANIFEST.json and lean/Verif.lean from the theorems in lean/Verif/Props.

Status and note per property come from tools/status.json."""
import json, re, glob, os
root = os.path.join(os.path.dirname(os.path.abspath(__file__)), "..")
props = [json.loads(l)["id"] for l in open(f"{root}/properties.jsonl")]
thms = {}
for f in sorted(glob.glob(f"{root}/lean/Verif/Props/*.lean")):
    for m in re.finditer(r"^theorem ((C\d\d)_\S+)", open(f).read(), re.M):
        thms.setdefault(m.group(2), []).append("DPPIR.Props." + m.group(1))
status = json.load(open(f"{root}/tools/status.json"))
claims = []
for p in props:
    st = status.get(p)
    if p in thms:
        st = st or {"status": "proved", "note": ""}
        claims.append({"property": p, "status": st["status"], "theorems": thms[p], "note": st["note"]})
json.dump({"claims": claims}, open(f"{root}/MANIFEST.json", "w"), indent=1)
mods = []
for d in ("Model", "Spec", "Proofs", "Props"):
    for f in sorted(glob.glob(f"{root}/lean/Verif/{d}/*.lean")):
        mods.append(f"import Verif.{d}." + os.path.basename(f)[:-5])
open(f"{root}/lean/Verif.lean", "w").write("\n".join(mods) + "\n")
print(len(claims), "claims;", "missing:", [p for p in props if p not in thms])
