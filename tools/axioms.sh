#!/bin/sh
# Writes AXIOMS.md; needs a finished `lake build`.
cd "$(dirname "$0")/../lean" || exit 1
{
  echo "# Axioms of the property theorems"
  echo
  echo "Made by \`tools/axioms.sh\`; \`[]\` means no axioms at all."
  echo
  lake env lean --stdin < ../tools/axioms.txt | sed 's/^Tcpx\.\([^:]*\): \(.*\)$/* `\1`: \2/'
} > ../AXIOMS.md
