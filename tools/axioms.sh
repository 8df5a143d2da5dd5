#!/bin/sh
# Print the axioms of every theorem named in MANIFEST.json (needs a built lean/ tree).
cd "$(dirname "$0")/../lean" || exit 1
f=$(mktemp /tmp/axiomsXXXXXX.lean)
python3 - > "$f" <<'P'
import json
print("import Verif")
for c in json.load(open("../MANIFEST.json"))["claims"]:
    for t in c["theorems"]:
        print("#print axioms", t)
P
lake env lean "$f" | tr '\n' ' ' | sed "s/ '/\n'/g" | grep -v "depends on axioms: \[propext, *Classical.choice, *Quot.sound\]" | \
  grep -v "does not depend on any axioms" | grep -v "depends on axioms: \[\(propext\|Quot.sound\|Classical.choice\|, *\)*\]"
rm -f "$f"
echo "axioms checked (lines above, if any, are exceptions)"
