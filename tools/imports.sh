#!/bin/sh
# regenerate lean/Verif.lean
cd /verif/lean && find Verif -name '*.lean' | sort | sed 's/\.lean$//; s#/#.#g; s/^/import /' > Verif.lean
