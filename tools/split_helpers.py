#!/usr/bin/env python3
"""Usage: split_helpers.py Group -- moves every theorem of Props/Group.lean whose
name does not start with C<digits>_ into Proofs/Group.lean (new file)."""
import re, sys
g, ns, imports = sys.argv[1], sys.argv[2], sys.argv[3:]
src = open(f"Verif/Props/{g}.lean").read()
body = src
# split into top-level chunks
lines = src.split("\n")
starts = re.compile(r"^(/--|/-!|theorem |def |example|instance|namespace|open|end |import|lemma |abbrev |private |noncomputable )")
chunks, cur = [], []
prev_doc = False
for ln in lines:
    if starts.match(ln) and not prev_doc:
        chunks.append("\n".join(cur)); cur = [ln]
        prev_doc = ln.startswith("/--") and True
        if prev_doc and ln.rstrip().endswith("-/"): prev_doc = "done"
    else:
        if prev_doc == "done" and starts.match(ln): prev_doc = False
        cur.append(ln)
        if prev_doc is True and ln.rstrip().endswith("-/"): prev_doc = "done"
chunks.append("\n".join(cur))
helper, keep = [], []
for c in chunks:
    m = re.search(r"^(?:private )?(?:theorem|lemma) (\S+)", c, re.M)
    if m and not re.match(r"C\d\d", m.group(1)):
        helper.append(c)
    else:
        keep.append(c)
hd = "\n".join(f"import {i}" for i in imports)
open(f"Verif/Proofs/{g}.lean", "w").write(hd + f"\n\nnamespace {ns}\n" + "\n".join(helper) + f"\nend {ns}\n")
open(f"Verif/Props/{g}.lean", "w").write("\n".join(keep))
