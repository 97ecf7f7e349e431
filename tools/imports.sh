#!/bin/sh
# Regenerates lean/Verif.lean: imports every module under lean/Verif.
cd "$(dirname "$0")/../lean" && find Verif -name '*.lean' | sort | sed 's/\.lean$//; s#/#.#g; s/^/import /' > Verif.lean
