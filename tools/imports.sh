#!/bin/sh
# regenerates lean/Verif.lean from the files below lean/Verif
cd /verif/lean && find Verif -name '*.lean' | sort | sed 's|/|.|g; s|\.lean$||; s|^|import |' > Verif.lean
