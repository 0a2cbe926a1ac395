#!/bin/sh
# Write the axioms of every theorem named in MANIFEST.json to AXIOMS.txt (run after lake build).
cd "$(dirname "$0")/../lean" || exit 1
f=$(mktemp /tmp/axXXXX.lean)
echo "import Verif" > "$f"
python3 - >> "$f" <<'PY'
import json
for c in json.load(open("../MANIFEST.json"))["claims"]:
    for t in c["theorems"]:
        print("#print axioms " + t)
PY
lake env lean "$f" | tr '\n' ' ' | sed "s/  */ /g; s/ '\([A-Z]\)/\n'\1/g" > ../AXIOMS.txt
echo >> ../AXIOMS.txt
rm -f "$f"
