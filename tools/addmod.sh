#!/bin/bash
# add the Model/Spec/Lemmas/Props modules with the given names to Verif.lean
cd /verif/lean
for m in "$@"; do for k in Model Spec Lemmas Props; do
 [ -f Verif/$k/$m.lean ] && { grep -qx "import Verif.$k.$m" Verif.lean || echo "import Verif.$k.$m" >> Verif.lean; }
done; done
