#!/usr/bin/env python3
"""Write lean/Verif/Suite/Hardware.lean: results of the floating-point unit (printed by hw.c), to be checked on the model."""
import os, subprocess, sys, tempfile
here = os.path.dirname(os.path.abspath(__file__))
tmp = tempfile.mkdtemp()
subprocess.check_call(["gcc", "-O0", "-frounding-math", os.path.join(here, "hw.c"), "-lm", "-o", tmp + "/hw"])
rows = [l.split() for l in subprocess.check_output([tmp + "/hw"], text=True).splitlines()]
groups = {}
for t, md, op, am, ae, bm, be, rm, re in rows:
    groups.setdefault((t, int(md)), []).append(f"({op}, ({am}, {ae}), ({bm}, {be}), ({rm}, {re}))")
KIND = {"F": ("arith", ".single"), "D": ("arith", ".double"), "L": ("arith", ".extended"),
        "CF": ("conv .double", ".single"), "CD": ("conv .extended", ".double"),
        "IF": ("ofInt", ".single"), "ID": ("ofInt", ".double")}
MODE = [".near", ".down", ".up", ".zero"]
out = [open(os.path.join(here, "hw_head.txt")).read()]
n = 0
for (t, md), rs in sorted(groups.items()):
    fn, fmt = KIND[t]
    for i in range(0, len(rs), 66):
        part = rs[i:i + 66]
        n += len(part)
        out.append(f"example : ([\n  " + ",\n  ".join(part) + f"] : List Row).all ({fn} {fmt} {MODE[md]}) = true := by\n  decide +kernel\n")
out.append("end BI.Suite.Hardware\n")
open(os.path.join(here, "../lean/Verif/Suite/Hardware.lean"), "w").write("\n".join(out))
print(n, "cases")
