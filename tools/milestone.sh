#!/bin/sh
# Regenerates the derived files after a change to the properties, the notes or the theorems.
set -e
cd /verif
python3 tools/props.py
(cd lean && lake build 2>&1 | grep -A12 "error" || true)
python3 tools/manifest.py
(cd lean && lake env lean /tmp/axioms.lean | grep -v "propext\|does not depend" || true)
python3 tools/design.py
