#!/bin/sh
# Usage: run.sh SEED. Compares the model with second readings of /repo on random inputs; needs a built /verif/lean.
set -e
here=$(cd "$(dirname "$0")" && pwd); seed=${1:-1}
mkdir -p /tmp/burnfm/f; cp "$here"/*.py /tmp/burnfm/
for d in "$here"/*.lean.txt; do cp "$d" "/tmp/burnfm/$(basename "$d" .txt)"; done
cd /tmp/burnfm
python3 chunkfuzz.py "$seed"
python3 decfuzz.py "$seed" 60
python3 vmfuzz.py "$seed" 1000
python3 calcfuzz.py "$seed" 5000
python3 relfuzz.py "$seed" 1000
python3 burnfuzz.py "$seed" 5000
python3 asmfuzz.py "$seed" 200
