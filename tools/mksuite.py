#!/usr/bin/env python3
"""Transcribe the comparison tests of /repo/test into lean/Verif/Suite/Compare.lean."""
import re, os
R = "/repo/test"
REL = {"<": ".lt", "<=": ".le", ">": ".gt", ">=": ".ge", "==": ".eq", "!=": ".ne"}
SW = {".lt": ".gt", ".le": ".ge", ".gt": ".lt", ".ge": ".le", ".eq": ".eq", ".ne": ".ne"}
out = []

def val(e, env):
    return env[e.strip()]

def claim(fn, expr, env, chk, want):
    """fn: name prefix in the model; want: 'true' / 'false' / 'exn' / 'ind'"""
    m = re.fullmatch(r"(\w+)\s*(<=|>=|==|!=|<|>)\s*(\w+)", expr)
    x, r, y = val(m[1], env), REL[m[2]], val(m[3], env)
    if x[0] == "T":
        x, y, r = y, x, SW[r]
        assert x[0] == "I"
    res = {"exn": ".error .comparison", "true": ".ok true", "false": ".ok false", "ind": ".ok none"}[want]
    if fn == "tri" and want in ("true", "false"): res = f".ok (some {want})"
    if y[0] == "I":
        return f"{fn}II {r} {chk} {chk} {x[1]} {y[1]} = {res}"
    if fn == "set": return f"{fn}IT {r} {x[1]} {y[1]} = {res}"
    return f"{fn}IT {r} {chk} {x[1]} {y[1]} = {res}"

def exp_claim(expr, env):
    neg = expr.startswith("!")
    m = re.fullmatch(r"!?(cer|pos)(lt|le|gt|ge|eq|ne)\((\w+), (\w+)\)", expr)
    x, y = val(m[3], env), val(m[4], env)
    return f"{m[1]}{x[0]}{y[0]} .{m[2]} {x[1]} {y[1]} = {'false' if neg else 'true'}"

def run(file, fn, chk, empty=None):
    name, env, claims, start, cur = None, {}, [], 0, fn
    for i, line in enumerate(open(f"{R}/{file}"), 1):
        line = line.strip()
        m = re.match(r"static void (test_\w+)\(\)", line)
        if m:
            name, env, claims, start, cur = m[1], {}, [], i, fn
            if file == "cmp_exn.cpp": cur = "cmp"
            continue
        if name is None: continue
        m = re.match(r"using namespace .*::(\w+);", line)
        if m: cur = {"certain": "certain", "possible": "possible", "lexicographic": "lex", "set": "set", "tribool": "tri"}[m[1]]
        for m in re.finditer(r"(\w)\((-?\d+),\s*(-?\d+)\)", line if line.startswith(("const I", "I const", "I a")) else ""):
            env[m[1]] = ("I", f"(iv {paren(m[2])} {paren(m[3])})")
        for m in re.finditer(r"(\w)\(I::empty\(\)\)", line):
            env[m[1]] = ("I", "emptyNeg" if chk == "negNan" else "emptyInt")
        if line.startswith(("const int", "int const")):
            for m in re.finditer(r"(\w) = (-?\d+|my_checking::nan\(\))", line):
                env[m[1]] = ("T", f"(nm {paren(m[2])})" if m[2][0] != "m" else "(nm (-1))")
        m = re.match(r"BOOST_TEST\((.*)\);", line)
        if m:
            e = m[1]
            if file == "cmp_exp.cpp": claims.append(exp_claim(e, env))
            elif e.startswith("indeterminate("): claims.append(claim(cur, e[14:-1], env, chk, "ind"))
            elif e.startswith("!("): claims.append(claim(cur, e[2:-1], env, chk, "false"))
            else: claims.append(claim(cur, e, env, chk, "true"))
        m = re.match(r"BOOST_C_EXN\((.*)\);", line)
        if m: claims.append(claim(cur, m[1], env, chk, "exn"))
        if line == "}" and claims:
            out.append(f"/-- {file} {start}-{i} ({name}) -/")
            out.append("example :\n    " + " ∧\n    ".join(claims) + " := by\n  and_intros <;> decide +kernel\n")
            total[0] += len(claims)
            claims = []

def paren(s): return f"({s})" if s.startswith("-") else s
total = [0]
run("cmp.cpp", "cmp", "baseInt")
run("cmp_lex.cpp", "lex", "baseInt")
run("cmp_set.cpp", "set", "baseInt")
run("cmp_tribool.cpp", "tri", "baseInt")
run("cmp_exp.cpp", "", "baseInt")
run("cmp_exn.cpp", "cmp", "negNan")
head = '''import Verif.Model.Compare
import Verif.Model.MachInt
/-!
# The comparison tests of the library, run on the model

Generated by tools/mksuite.py from /repo/test/cmp*.cpp. These are tests of the transcription, not proofs of properties.
-/

namespace BI.Suite

/-- The int `a` and the interval `[a, b]` of ints. -/
def nm (a : Int) : MInt 28 := Num.lit a
def iv (a b : Int) : Itv (MInt 28) := ⟨nm a, nm b⟩

/-- `checking_base<int>`, cmp_header.hpp 19-21 -/
def baseInt : Checking (MInt 28) := chkBase _ false

/-- cmp_exn.cpp 17-24; what it does not define is not used. -/
def negNan : Checking (MInt 28) where
  posInf := .error .assertion
  negInf := .error .assertion
  nan := .ok (Num.lit (-1))
  isNan x := .ok (decide (x.z < 0))
  emptyLower := .ok (Num.lit (-1))
  emptyUpper := .ok (Num.lit (-1))
  isEmpty l u := .ok (decide (l.z = -1) && decide (u.z = -1))

/-- `I::empty()` with `checking_base<int>` -/
def emptyInt : Itv (MInt 28) := iv 1 0
example : emptyI baseInt = .ok emptyInt := by decide +kernel

/-- `I::empty()` in cmp_exn.cpp -/
def emptyNeg : Itv (MInt 28) := iv (-1) (-1)
example : emptyI negNan = .ok emptyNeg := by decide +kernel

'''
open(os.path.join(os.path.dirname(__file__), "..", "lean", "Verif", "Suite", "Compare.lean"), "w").write(head + "\n".join(out) + "\nend BI.Suite\n")
print(total[0], "claims")
