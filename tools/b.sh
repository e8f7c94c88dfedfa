#!/bin/bash
cd /verif/lean
lake build "$@" 2>&1 | grep -v "^✔\|^ℹ\|unusedSectionVars\|^⚠" | head -${LINES_MAX:-90}
