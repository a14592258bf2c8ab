"""Transcribe the unrolled rounds of threefry.h into Lean, statement by statement.

Prints the two lists `tf2Code` and `tf4Code` of lean/Verif/Model/CtrUnrolled.lean: one entry per guarded block
`if(Nrounds>g){ ... }`, in the order of the text.
"""
import re
import sys

src = open(sys.argv[1] if len(sys.argv) > 1 else "/repo/randomgen/src/threefry/threefry.h").read()


def template(name):
    m = re.search(r"#define %s\(W\)(.*?)return X;" % name, src, re.S)
    body = m.group(1).replace("\\\n", "\n")
    body = re.sub(r"/\*.*?\*/", "", body, flags=re.S)
    return body[body.index("if(Nrounds>0)"):]


def stmt(s):
    s = s.strip().replace("4-1", "3")
    m = re.fullmatch(r"X\.v\[(\d)\] \+= X\.v\[(\d)\]", s)
    if m:
        return ".add %s %s" % m.groups()
    m = re.fullmatch(r"X\.v\[(\d)\] = RotL_##W\(X\.v\[(\d)\],R_##W##x\d_(\d)_(\d)\)", s)
    if m:
        return ".rot %s %s %s %s" % m.groups()
    m = re.fullmatch(r"X\.v\[(\d)\] \^= X\.v\[(\d)\]", s)
    if m:
        return ".xor %s %s" % m.groups()
    m = re.fullmatch(r"X\.v\[(\d)\] \+= ks\[(\d)\]", s)
    if m:
        return ".key %s %s" % m.groups()
    m = re.fullmatch(r"X\.v\[(\d)\] \+= (\d+)", s)
    if m:
        return ".num %s %s" % m.groups()
    raise ValueError(s)


for name, lean in (("_threefry2x_tpl", "tf2Code"), ("_threefry4x_tpl", "tf4Code")):
    body = template(name)
    out = []
    end = 0
    for m in re.finditer(r"if\(Nrounds>(\d+)\)\{(.*?)\}", body, re.S):
        assert body[end:m.start()].strip() == "", body[end:m.start()]
        end = m.end()
        ss = [stmt(s) for s in m.group(2).split(";") if s.strip()]
        out.append("(%s, [%s])" % (m.group(1), ", ".join(ss)))
    assert body[end:].strip() == "", body[end:]
    print("def %s : List (Nat × List XStmt) :=\n  [%s]\n" % (lean, ",\n   ".join(out)))
