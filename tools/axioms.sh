#!/bin/sh
# Write the axioms every theorem listed in MANIFEST.json depends on to tools/axioms.txt.
# Run after `lake build` in /verif/lean.
cd "$(dirname "$0")/../lean" || exit 1
f=$(mktemp /tmp/axioms.XXXXXX.lean)
echo "import Verif" > "$f"
python3 -c "
import json
seen = []
for c in json.load(open('../MANIFEST.json'))['claims']:
    for t in c['theorems']:
        if t not in seen:
            seen.append(t)
            print('#print axioms', t)
" >> "$f"
lake env lean "$f" > ../tools/axioms.txt
rm -f "$f"
