#!/bin/bash
# Print the axioms every property theorem depends on.  Run after `lake build` in lean/.
cd "$(dirname "$0")/../lean" || exit 1
f=$(mktemp -d)/Axioms.lean
{ echo "import Verif"
  grep -hoE "^theorem C[0-9]{2}_[A-Za-z0-9_']*" Verif/Props/*.lean | sed 's/theorem /#print axioms Scrypt.Props./' | sort -u; } > "$f"
lake env lean "$f" | tr '\n' ' ' | sed "s/'Scrypt/\n'Scrypt/g" | sed 's/  */ /g' | sort | uniq > "$f.out"
grep -v "^$" "$f.out" | sed "s/.*depends on axioms: //" | sort | uniq -c
grep -vE "propext|Quot.sound|Classical.choice|does not depend|^$" "$f.out"
exit 0
