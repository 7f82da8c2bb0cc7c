#!/bin/sh
# lake build, errors and goals only
cd /verif/lean
lake build "$@" 2>&1 | grep -v "^info\|linter\|^trace\|^warning" | grep "error\|declaration uses\|⊢\|completed" -A${A:-6} | head -${LINES_MAX:-120}
