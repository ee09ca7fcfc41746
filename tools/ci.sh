#!/bin/sh
# regenerate imports, properties, manifest; commit; run vcheck
cd /verif/lean && find Verif -name '*.lean' | sort | sed 's/\//./g;s/\.lean$//;s/^/import /' > Verif.lean
cd /verif && python3 tools/props.py && python3 tools/manifest.py && git add -A && git commit -qm "$1" && vcheck
