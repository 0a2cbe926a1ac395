#!/usr/bin/env python3
"""Single source for properties.jsonl and MANIFEST.json (run: python3 tools/claims.py)."""
import json, os
ROOT = os.path.dirname(os.path.dirname(os.path.abspath(__file__)))
PROPS, CLAIMS = [], []

def P(id, title, statement, quantifier, why, anchors, status=None, theorems=(), note=""):
    PROPS.append(dict(id=id, title=title, statement=statement, quantifier=quantifier,
                      why_tests_cant=why, anchors=list(anchors)))
    if status:
        CLAIMS.append(dict(property=id, status=status, theorems=list(theorems), note=note))

A = "src/modm/architecture/"; C = "src/modm/container/"; T = "src/modm/processing/"; M = "src/modm/math/"
K = "src/modm/communication/"; D = "src/modm/driver/"; U = "src/modm/ui/"

exec(open(os.path.join(ROOT, "tools", "claims_data.py")).read())

def S(id, status, theorems, note=""):
    assert id in [p["id"] for p in PROPS], id
    CLAIMS.append(dict(property=id, status=status, theorems=list(theorems.split()), note=note))

exec(open(os.path.join(ROOT, "tools", "claims_status.py")).read())
CLAIMS.sort(key=lambda c: int(c["property"][1:]))

ids = [p["id"] for p in PROPS]
assert len(ids) == len(set(ids)), "duplicate id"
with open(os.path.join(ROOT, "properties.jsonl"), "w") as f:
    for p in PROPS:
        f.write(json.dumps(p, ensure_ascii=False) + "\n")
with open(os.path.join(ROOT, "MANIFEST.json"), "w") as f:
    json.dump({"claims": CLAIMS}, f, indent=1, ensure_ascii=False)
    f.write("\n")
print(len(PROPS), "properties,", len(CLAIMS), "claims")
