#!/bin/sh
# every file must also compile without auto-bound implicits (a misspelt name in a statement is an error then)
cd "$(dirname "$0")/../lean" || exit 1
for f in ${@:-$(find Verif -name '*.lean')}; do
  lake env lean -DautoImplicit=false "$f" 2>&1 | grep error | sed "s|^|$f: |"
done
