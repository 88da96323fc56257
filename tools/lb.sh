#!/bin/bash
# build given modules; show errors briefly (warnings only if WARN is set)
cd ${LEANDIR:-/verif/lean}; set -o pipefail
lake build "$@" > /tmp/lb.out 2>&1; rc=$?
if [ $rc = 0 ]; then echo "ok: $*"; [ -n "$WARN" ] && grep -A3 "^warning" /tmp/lb.out; exit 0; fi
awk '/^error/{p=1} /^(warning|info|trace|✔|ℹ|⚠|✖)/{p=0} p' /tmp/lb.out | cut -c1-${COLS:-600} | head -${LINES_MAX:-14}
exit $rc
