#!/bin/sh
# Print the axioms of every theorem listed in MANIFEST.json (run after `lake build`).
cd "$(dirname "$0")/../lean" || exit 1
t=$(mktemp --suffix=.lean)
python3 - "$t" <<'PY'
import json,sys
m=json.load(open("../MANIFEST.json"))
with open(sys.argv[1],"w") as f:
    f.write("import Verif\n")
    for c in m["claims"]:
        for t in c["theorems"]: f.write(f"#print axioms {t}\n")
PY
lake env lean "$t" | tr '\n' ' ' | sed "s/'Vvflow/\n'Vvflow/g" | sed 's/.*depends on axioms: //' | sort | uniq -c
rm "$t"
