#!/bin/bash
# build a target and print errors only
cd /verif/lean && lake build "$@" 2>&1 | grep -v "^warning\|linter\|Hint\|apply\]\|^$\|Note\|^trace\|Replayed\|^  • " | head -${LINES_MAX:-70}
