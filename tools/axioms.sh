#!/bin/bash
# Print the axioms every theorem listed in MANIFEST.json depends on, and fail on anything unexpected.
cd "$(dirname "$0")/../lean" || exit 1
f=$(mktemp --suffix=.lean)
python3 - > "$f" <<'PY'
import json
print("import Verif")
for c in json.load(open("../MANIFEST.json"))["claims"]:
    for t in c["theorems"]:
        print("#print axioms", t)
PY
lake env lean "$f" > "$f.out" 2>&1
cat "$f.out"
if grep -E "error|sorryAx|ofReduceBool|trustCompiler" "$f.out"; then echo BAD; exit 1; fi
grep -ho "\[.*\]" "$f.out" | sort | uniq -c
