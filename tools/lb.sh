#!/bin/sh
cd /verif/lean && lake build "$@" 2>&1 | grep -v "^✔" | grep -v "linter.unused\|^Hint: Omit\|^  \[apply\]\|^Note: This linter\|^$\|^trace:" | head -${LINES_MAX:-80}
