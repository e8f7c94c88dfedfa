#!/bin/bash
# usage: ms.sh "commit message"
cd /verif || exit 1
/tmp/gen.sh
python3 tools/gen_manifest.py
cd lean && (lake build > /tmp/ms.build 2>&1 || touch /tmp/ms.failed); grep -E "error|warning.*sorry|Build completed|failed" /tmp/ms.build | head -20
if [ -e /tmp/ms.failed ]; then rm /tmp/ms.failed; echo BUILD FAILED; exit 1; fi
cd ..
if grep -rnE 'sorry|admit|^axiom |native_decide|bv_decide|implemented_by|unsafe |maxHeartbeats 0' lean/Verif; then echo FORBIDDEN; exit 1; fi
git add -A && git commit -qm "$1" && vcheck
