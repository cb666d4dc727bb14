#!/bin/bash
cd /verif/lean && (for f in $(find Verif -name '*.lean' | sort); do m=${f%.lean}; echo "import ${m//\//.}"; done) > Verif.lean
