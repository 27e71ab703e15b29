#!/usr/bin/env python3
"""Regenerates MANIFEST.json.  Theorem names are collected from lean/Verif/Props by prefix Cnn_."""
import json, re, glob, os
root = os.path.join(os.path.dirname(os.path.abspath(__file__)), "..")
# property -> (status, note)
STATUS = {
 "C01": ("proved", ""),
 "C02": ("partial", "Proved for distinct index labels; false in general, refuted by a concrete batch with a repeated label."),
 "C03": ("proved", ""),
 "C04": ("proved", "Distinct labels, as the property says; refutation for repeated labels included."),
 "C05": ("proved", ""),
 "C06": ("proved", ""),
 "C07": ("proved", ""),
 "C08": ("partial", "Proved for conditions whose features and values are '='-free text; refuted in general (equality compares printed text)."),
 "C09": ("partial", "Proved for rules without repeated conditions; refuted otherwise."),
 "C10": ("proved", ""),
 "C12": ("proved", ""),
 "C13": ("proved", ""),
 "C14": ("proved", ""),
 "C45": ("partial", "Proved for pairwise disjoint rules; refuted for overlapping ones."),
}
STATUS_FILE = os.path.join(root, "tools", "status.json")
if os.path.exists(STATUS_FILE):
    for k, v in json.load(open(STATUS_FILE)).items():
        STATUS[k] = tuple(v)
thms = {}
for f in sorted(glob.glob(os.path.join(root, "lean/Verif/Props/*.lean"))):
    for m in re.finditer(r"^theorem (C\d{2,3})(_[A-Za-z0-9_']+)", open(f).read(), re.M):
        thms.setdefault(m.group(1), []).append("Witt." + m.group(1) + m.group(2))
claims = []
for k in sorted(STATUS):
    st, note = STATUS[k]
    claims.append({"property": k, "status": st, "theorems": thms.get(k, []), "note": note})
for k in sorted(set(thms) - set(STATUS)):
    print("no status for", k)
for c in claims:
    if not c["theorems"] and c["status"] != "not_applicable":
        print("no theorem for", c["property"])
json.dump({"claims": claims}, open(os.path.join(root, "MANIFEST.json"), "w"), indent=1)
