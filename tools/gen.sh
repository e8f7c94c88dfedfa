#!/bin/bash
cd /verif/lean
(for d in Model Spec Proofs Props; do ls Verif/$d/*.lean 2>/dev/null | sed 's/\.lean$//; s#/#.#g; s/^/import /'; done) > Verif.lean
