#!/bin/bash
# usage: milestone.sh "commit message": regenerate, build, commit, check
set -e -o pipefail
cd "$(dirname "$0")/.."
python3 tools/manifest.py
(cd lean && lake build 2>&1 | { grep -A6 "error" || true; } | head -30; test "${PIPESTATUS[0]}" = 0)
git add -A && git commit -qm "$1"
vcheck | tail -c 1500
