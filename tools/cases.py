#!/usr/bin/env python3
"""Lists the property theorems that no `example` in lean/Verif/Props or lean/Verif/Cases applies by name."""
import re, glob, os, sys
root = os.path.join(os.path.dirname(os.path.abspath(__file__)), "..", "lean", "Verif")
START = r'^(?=(?:@\[[^\]]*\]\s*)?(?:private |noncomputable |protected )*(?:theorem|lemma|example|def|abbrev|structure|class|instance|inductive|end|section|namespace|variable|open|set_option|include|omit|/--|/-!|import)\b|/-[-!])'
names, used = [], set()
for f in sorted(glob.glob(root + "/Props/*.lean") + glob.glob(root + "/Cases/*.lean")):
    s = open(f).read()
    names += [(os.path.relpath(f, root), n) for n in re.findall(r'^theorem (C\d\d+_\w+)', s, re.M)]
    for part in re.split(START, s, flags=re.M):
        if re.match(r'(noncomputable )?example\b', part):
            used |= set(re.findall(r'\bC\d\d+_\w+', part))
missing = [x for x in names if x[1] not in used]
if len(sys.argv) > 1: missing = [x for x in missing if sys.argv[1] in x[0]]
for f, n in missing: print(f, n)
print(len(names), "theorems,", len(missing), "without a concrete application")
