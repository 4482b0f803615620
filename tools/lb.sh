#!/bin/sh
# build one module, print only the errors
cd /verif/lean && lake build "$1" 2>&1 | grep -v "^trace" | awk '/^error/{p=1} /^(warning|info|⚠|✖|ℹ|✔)/{p=0} p' | head -${2:-120}
