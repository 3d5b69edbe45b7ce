#!/usr/bin/env python3
"""Copies the floating point tables of /repo/src/tables/*.rs into Lean as exact decimal numbers: every entry is an
integer over the table's common denominator.
Run: python3 tools/gen_float_tables.py   (reads /repo, writes lean/Verif/Tables/*.lean)"""
import re, os
from fractions import Fraction
from math import lcm
REPO = "/repo/src/tables/"
OUT = os.path.join(os.path.dirname(os.path.abspath(__file__)), "..", "lean", "Verif", "Tables")

def find(raw, name):
    m = re.search(r"pub const %s\s*:\s*\[.*?\]\s*=\s*" % re.escape(name), raw, re.S)
    start = m.end(); line = raw.count("\n", 0, m.start()) + 1
    depth = 0; i = start
    while True:
        c = raw[i]
        if c == "[": depth += 1
        if c == "]":
            depth -= 1
            if depth == 0: break
        i += 1
    endline = raw.count("\n", 0, i) + 1
    body = re.sub(r"//[^\n]*", "", raw[start:i + 1])
    body = re.sub(r"(\d[\d.]*(?:[eE][+-]?\d+)?)", r"Fraction('\1')", body)
    return eval(body), line, endline

def wrap(xs, per=6):
    return ",\n   ".join(", ".join(str(x) for x in xs[i:i + per]) for i in range(0, len(xs), per))

def gen(mod, fn, names, doc):
    raw = open(REPO + fn).read()
    out = ["import Mathlib.Data.Rat.Defs",
           "/-! Generated by tools/gen_float_tables.py from /repo/src/tables/%s (%s). Do not edit. -/" % (fn, doc), "",
           "namespace Lc3.Tables", ""]
    for n in names:
        v, l0, l1 = find(raw, n)
        flat = [x for r in v for x in r] if isinstance(v[0], list) else v
        den = 1
        for x in flat: den = lcm(den, x.denominator)
        ints = lambda r: [int(x * den) for x in r]
        out.append("/-- common denominator of the entries of `%s` -/\ndef %s_den : Nat := %d\n" % (n, n, den))
        if isinstance(v[0], list):
            out.append("/-- numerators of `%s` -/\ndef %s_num : List (List Int) :=\n  [%s]\n" % (n, n, ",\n   ".join("[%s]" % ", ".join(map(str, ints(r))) for r in v)))
            out.append("/-- `%s`, tables/%s lines %d-%d -/\ndef %s : List (List Rat) := %s_num.map (·.map fun n => mkRat n %s_den)\n" % (n, fn, l0, l1, n, n, n))
        else:
            xs = ints(v); chunk = 120
            parts = [xs[i:i + chunk] for i in range(0, len(xs), chunk)]
            for j, p in enumerate(parts):
                out.append("/-- part %d of the numerators of `%s` -/\ndef %s_num_%d : List Int :=\n  [%s]\n" % (j, n, n, j, wrap(p)))
            out.append("/-- numerators of `%s` -/\ndef %s_num : List Int :=\n  List.flatten [%s]\n" % (n, n, ", ".join("%s_num_%d" % (n, j) for j in range(len(parts)))))
            out.append("/-- `%s`, tables/%s lines %d-%d -/\ndef %s : List Rat := %s_num.map fun n => mkRat n %s_den\n" % (n, fn, l0, l1, n, n, n))
    out.append("end Lc3.Tables")
    open(os.path.join(OUT, mod + ".lean"), "w").write("\n".join(out) + "\n")

gen("SnsFloat", "spec_noise_shape_quant_tables.rs", ["LFCB", "HFCB", "SNS_VQ_REG_ADJ_GAINS", "SNS_VQ_REG_LF_ADJ_GAINS", "SNS_VQ_NEAR_ADJ_GAINS", "SNS_VQ_FAR_ADJ_GAINS", "D"], "scale factor codebooks")
gen("LtpfFloat", "long_term_post_filter_coef.rs", ["TAB_RESAMP_FILTER", "TAB_LTPF_INTERP_R", "TAB_LTPF_INTERP_X12K8"] + ["TAB_LTPF_%s_%d" % (k, f) for k in ("NUM", "DEN") for f in (8000, 16000, 24000, 32000, 48000)], "post filter coefficients")
gen("Windows", "mdct_windows.rs", ["W_N%d_10MS" % n for n in (80, 160, 240, 320, 480)] + ["W_N%d_7P5MS" % n for n in (60, 120, 180, 240, 360)], "transform windows")
