#!/usr/bin/env python3
"""Copies the integer tables of /repo/src/tables/*.rs into Lean list literals.
Run: python3 tools/gen_tables.py   (reads /repo, writes lean/Verif/Tables/*.lean)"""
import re, os, sys
REPO = "/repo/src/tables/"
OUT = os.path.join(os.path.dirname(os.path.abspath(__file__)), "..", "lean", "Verif", "Tables")
os.makedirs(OUT, exist_ok=True)

def load(fn):
    with open(REPO + fn) as f: raw = f.read()
    return raw

def find(raw, name):
    m = re.search(r"pub const %s\s*:\s*\[.*?\]\s*=\s*" % re.escape(name), raw, re.S)
    start = m.end()
    line = raw.count("\n", 0, m.start()) + 1
    depth = 0
    i = start
    while True:
        c = raw[i]
        if c == "[": depth += 1
        if c == "]":
            depth -= 1
            if depth == 0: break
        i += 1
    endline = raw.count("\n", 0, i) + 1
    body = raw[start:i+1]
    body = re.sub(r"//[^\n]*", "", body)
    return eval(body), line, endline

def flat(name, rows, fn, l0, l1, out):
    out.append("/-- `%s`, tables/%s lines %d-%d -/" % (name, fn, l0, l1))
    chunk = 128
    if len(rows) <= chunk:
        out.append("def %s : List Nat :=\n  [%s]\n" % (name, wrap(rows)))
    else:
        parts = [rows[i:i+chunk] for i in range(0, len(rows), chunk)]
        for j, p in enumerate(parts):
            out.insert(len(out) - 1, "/-- part %d of `%s` -/\ndef %s_%d : List Nat :=\n  [%s]\n" % (j, name, name, j, wrap(p)))
        out.append("def %s : List Nat :=\n  List.flatten [%s]\n" % (name, ", ".join("%s_%d" % (name, j) for j in range(len(parts)))))

def wrap(xs, per=24):
    lines = [", ".join(str(x) for x in xs[i:i+per]) for i in range(0, len(xs), per)]
    return ",\n   ".join(lines)

def nested(name, rows, fn, l0, l1, out):
    out.append("/-- `%s`, tables/%s lines %d-%d -/" % (name, fn, l0, l1))
    out.append("def %s : List (List Nat) :=\n  [%s]\n" % (name, ",\n   ".join("[%s]" % ", ".join(map(str, r)) for r in rows)))

def gen(mod, fn, names):
    raw = load(fn)
    out = ["/-! Generated by tools/gen_tables.py from /repo/src/tables/%s. Do not edit. -/" % fn, "", "namespace Lc3.Tables", ""]
    for n in names:
        v, l0, l1 = find(raw, n)
        if isinstance(v[0], list): nested(n, v, fn, l0, l1, out)
        else: flat(n, v, fn, l0, l1, out)
    out.append("end Lc3.Tables")
    with open(os.path.join(OUT, mod + ".lean"), "w") as f: f.write("\n".join(out) + "\n")

gen("SpectralData", "spectral_data_tables.rs", ["AC_SPEC_LOOKUP", "AC_SPEC_CUMFREQ", "AC_SPEC_FREQ", "AC_SPEC_BITS"])
gen("Tns", "temporal_noise_shaping_tables.rs", ["AC_TNS_ORDER_BITS", "AC_TNS_ORDER_FREQ", "AC_TNS_ORDER_CUMFREQ", "AC_TNS_COEF_BITS", "AC_TNS_COEF_FREQ", "AC_TNS_COEF_CUMFREQ"])
gen("Mpvq", "spec_noise_shape_quant_tables.rs", ["SNS_GAIN_MSB_BITS", "SNS_GAIN_LSB_BITS", "MPVQ_OFFSETS"])
gen("BandIndex", "band_index_tables.rs", ["I_%d_%s" % (f, d) for d in ("10MS", "7P5MS") for f in (8000, 16000, 24000, 32000, 48000)])
