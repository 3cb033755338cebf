#!/usr/bin/env python3
"""Translate the FieldStruct descriptions of /repo/pynitf to Lean.

Reads the sources as text (ast), never imports them. Output:
lean/Verif/Tables/T*.lean (the descriptions) and lean/Verif/Tables.lean (the registries).
Anything the translator does not understand is an error.
"""
import ast
import glob
import os
import sys

REPO = "/repo/pynitf"
OUT = os.path.join(os.path.dirname(os.path.abspath(__file__)), "..", "lean", "Verif")

fmt_ids = {}


def fmt_id(key):
    return fmt_ids.setdefault(key, len(fmt_ids))


def lean_str(s):
    assert all(32 <= ord(c) < 127 and c not in '"\\' for c in s), s
    return '"' + s + '"'


def cval(v):
    if isinstance(v, bool):
        raise Exception("bool constant")
    if isinstance(v, int):
        return f"(.int {v})" if v >= 0 else f"(.int ({v}))"
    if isinstance(v, str):
        return f"(.str {lean_str(v)})"
    if isinstance(v, bytes):
        return f"(.bytes [{', '.join(map(str, v))}])"
    raise Exception(f"constant {v!r}")


LOOPVARS = {"i1": 0, "i2": 1, "i3": 2}


def is_f(n):
    return isinstance(n, ast.Attribute) and isinstance(n.value, ast.Name) and n.value.id in ("f", "fs")


def ref(n, value_fn=False):
    """f.name, f.name[i1,i2] -> (name, idx)"""
    if is_f(n):
        return n.attr, []
    if isinstance(n, ast.Subscript) and is_f(n.value):
        sl = n.slice
        elts = sl.elts if isinstance(sl, ast.Tuple) else [sl]
        if value_fn and len(elts) == 1 and isinstance(elts[0], ast.Name) and elts[0].id == "key":
            # fs.x[key]: the whole key; the only use is at depth 1
            return n.value.attr, [0]
        return n.value.attr, [LOOPVARS[e.id] for e in elts]
    return None


def expr(n, value_fn=False):
    go = lambda x: expr(x, value_fn)
    r = ref(n, value_fn)
    if r:
        return f'(.ref (n!"{r[0]}") [{", ".join(map(str, r[1]))}])'
    if isinstance(n, ast.Constant):
        return f"(.const {cval(n.value)})"
    if isinstance(n, ast.Compare):
        assert len(n.ops) == 1
        a, op, b = n.left, n.ops[0], n.comparators[0]
        if isinstance(op, (ast.In, ast.NotIn)):
            assert isinstance(b, ast.Tuple)
            cs = ", ".join(cval(ast.literal_eval(e)) for e in b.elts)
            return f"(.{'isin' if isinstance(op, ast.In) else 'notin'} {go(a)} [{cs}])"
        nm = {ast.Eq: "eq", ast.NotEq: "ne", ast.Gt: "gt", ast.GtE: "ge"}[type(op)]
        return f"(.{nm} {go(a)} {go(b)})"
    if isinstance(n, ast.BoolOp):
        assert isinstance(n.op, ast.And)
        out = go(n.values[-1])
        for v in reversed(n.values[:-1]):
            out = f"(.and {go(v)} {out})"
        return out
    if isinstance(n, ast.IfExp):
        return f"(.ite {go(n.test)} {go(n.body)} {go(n.orelse)})"
    if isinstance(n, ast.Call):
        if isinstance(n.func, ast.Name) and n.func.id == "int":
            (x,) = n.args
            # int((n / 2) * (n + 1))
            if (isinstance(x, ast.BinOp) and isinstance(x.op, ast.Mult)
                    and isinstance(x.left, ast.BinOp) and isinstance(x.left.op, ast.Div)):
                a = x.left.left
                assert ast.unparse(x.left.right) == "2"
                assert isinstance(x.right, ast.BinOp) and isinstance(x.right.op, ast.Add)
                assert ast.unparse(x.right.left) == ast.unparse(a)
                assert ast.unparse(x.right.right) == "1"
                return f"(.tri {go(a)})"
            return f"(.toInt {go(x)})"
        if isinstance(n.func, ast.Attribute) and n.func.attr == "rstrip" and not n.args:
            return f"(.rstrip {go(n.func.value)})"
        raise Exception(ast.unparse(n))
    if isinstance(n, ast.BinOp):
        nm = {ast.Mult: "mul", ast.Add: "add", ast.Sub: "sub", ast.FloorDiv: "fdiv",
              ast.BitAnd: "band"}[type(n.op)]
        return f"(.{nm} {go(n.left)} {go(n.right)})"
    raise Exception(ast.unparse(n))


def parse_expr(s):
    return expr(ast.parse(s.strip(), mode="eval").body)


class Module:
    def __init__(self, path, ext):
        self.file = os.path.basename(path)
        self.ext = ext          # allow_extensions (nitf_tre.py:22)
        self.tree = ast.parse(open(path).read())
        self.env = {}           # module level constants
        self.tables = []        # (desc node line, Lean rows)
        self.classes = []       # (class name, base names, attributes, table index or None)
        self.walk(self.tree.body)

    def walk(self, body):
        cur = None
        for n in body:
            if isinstance(n, ast.If) and ast.unparse(n.test) == "allow_extensions":
                for m in (n.body if self.ext else n.orelse):
                    self.assign(m)
            elif isinstance(n, ast.Assign) and isinstance(n.targets[0], ast.Name):
                if n.targets[0].id == "desc":
                    cur = len(self.tables)
                    self.tables.append((n.lineno, n.end_lineno, self.rows(n.value, 1)))
                else:
                    self.assign(n)
            elif isinstance(n, ast.ClassDef):
                at = {}
                tab = None
                for b in n.body:
                    if isinstance(b, ast.Assign) and isinstance(b.targets[0], ast.Name):
                        t = b.targets[0].id
                        if t == "desc":
                            assert isinstance(b.value, ast.Name) and b.value.id == "desc"
                            tab = cur
                        elif isinstance(b.value, ast.Constant):
                            at[t] = b.value.value
                self.classes.append((n.name, [ast.unparse(b) for b in n.bases], at, tab))
            # anything else that touches desc would be a construct we do not handle
            elif not isinstance(n, (ast.Import, ast.ImportFrom, ast.FunctionDef)):
                for m in ast.walk(n):
                    if isinstance(m, ast.Name) and m.id == "desc":
                        raise Exception(f"{self.file}:{n.lineno}: unexpected use of desc")

    def assign(self, n):
        try:
            for t in n.targets:
                self.env[t.id] = ast.literal_eval(n.value)
        except Exception:
            pass

    def text(self, n):
        """Value of a string expression (literal or f-string of module constants)."""
        if isinstance(n, ast.Constant):
            return n.value
        if isinstance(n, ast.JoinedStr):
            out = ""
            for v in n.values:
                if isinstance(v, ast.Constant):
                    out += v.value
                else:
                    assert isinstance(v.value, ast.Name) and v.conversion == -1
                    out += str(self.env[v.value.id])
            return out
        if isinstance(n, ast.Name):
            return self.env[n.id]
        raise Exception(f"{self.file}:{n.lineno} {ast.unparse(n)}")

    def fmt(self, n, ty):
        if isinstance(n, ast.Name) and n.id not in self.env:
            return f"(.other {fmt_id(self.file + ':' + n.id)})"
        s = self.text(n)
        if ty == "int" and s.endswith("d") and s.startswith("%0") and s[2:-1].isdigit():
            return f"(.zd {int(s[2:-1])})"
        if ty == "int" and s.endswith("d") and s.startswith("%+0") and s[3:-1].isdigit():
            return f"(.pd {int(s[3:-1])})"
        return f"(.other {fmt_id(s)})"

    def rows(self, n, depth):
        assert isinstance(n, ast.List)
        return [self.row(r, depth) for r in n.elts]

    def row(self, r, depth):
        assert isinstance(r, ast.List)
        if isinstance(r.elts[0], ast.List):
            loop = r.elts[0]
            assert loop.elts[0].value == "loop" and len(loop.elts) == 2
            body = ast.List(elts=r.elts[1:])
            return ("loop", parse_expr(self.text(loop.elts[1])), self.rows(body, depth + 1), r.lineno)
        assert 4 <= len(r.elts) <= 5, ast.unparse(r)
        name, _, size, ty = r.elts[:4]
        name = name.value
        opts = {}
        if len(r.elts) == 5:
            d = r.elts[4]
            assert isinstance(d, ast.Dict)
            opts = {k.value: v for k, v in zip(d.keys, d.values)}
        out = []
        out.append("name := none" if name is None else f'name := some (n!"{name}")')
        sz = self.text(size)
        out.append(f"size := .const {sz}" if isinstance(sz, int) else f"size := .expr {parse_expr(sz)}")
        kind = "plain"
        if "field_value_class" in opts:
            c = opts.pop("field_value_class").id
            signed = opts.pop("signed", None)
            signed = signed.value if signed is not None else False
            kind = {"BytesFieldData": "bytesData", "StringFieldData": "strData",
                    "FloatFieldData": "fltData", "ENGRDAFieldData": "engrda",
                    "IntFieldData": f"intData {'true' if signed else 'false'}",
                    "RCoord": "coord", "CCoord": "coord"}[c]
            tyn = "bytes"
        else:
            t = ty.id if isinstance(ty, ast.Name) else ty.value
            if name is None:
                assert t in ("str", None)
                t = "str"
            tyn = {"str": "str", "int": "int", "float": "flt", "bytes": "bytes"}[t]
        out.append(f"ty := .{tyn}")
        if kind != "plain":
            out.append(f"kind := .{kind}")
        for k, v in opts.items():
            if k == "default":
                val = ast.literal_eval(v)
                if val is not None:
                    out.append(f"default := some {cval(val)}")
            elif k == "frmt":
                out.append(f"frmt := some {self.fmt(v, tyn)}")
            elif k == "condition":
                out.append(f"cond := some {parse_expr(self.text(v))}")
            elif k == "optional":
                assert isinstance(v.value, bool)
                if v.value:
                    out.append("optional := true")
            elif k == "optional_char":
                assert v.value in " -"
                if v.value != " ":
                    out.append(f"optChar := '{v.value}'")
            elif k == "hardcoded_value":
                assert v.value is True
                out.append("hardcoded := true")
            elif k == "value":
                assert isinstance(v, ast.Lambda)
                assert [a.arg for a in v.args.args] == ["fs", "key"] and depth == 2
                out.append(f"value := some {expr(v.body, True)}")
            elif k == "size_offset":
                out.append(f"sizeOffset := {v.value}")
            elif k == "size_not_updated":
                assert v.value is True
                out.append("sizeNotUpdated := true")
            else:
                raise Exception(f"{self.file}:{r.lineno}: option {k}")
        return ("field", "{ " + ", ".join(out) + " }")


def emit(rows, ind):
    pad = " " * ind
    out = []
    for r in rows:
        if r[0] == "field":
            out.append(f"{pad}.field {r[1]} <|")
        else:
            out.append(f"{pad}.loop {r[1]} (")
            out += emit(r[2], ind + 2)
            out[-1] = out[-1] + ") <|"
    out.append(f"{pad}.nil")
    return out


def main():
    mods = []
    for p in sorted(glob.glob(REPO + "/*.py")):
        m = Module(p, True)
        if m.tables:
            mods.append((m, ""))
            if m.file == "nitf_tre_csexrb.py":
                mods.append((Module(p, False), "_std"))
    defs = []
    tres, others = [], []
    for m, suf in mods:
        base = m.file[len("nitf_"):-len(".py")]
        names = {}
        for i, (l0, l1, rows) in enumerate(m.tables):
            nm = "t_" + base + suf + ("" if len(m.tables) == 1 else f"_{i + 1}")
            names[i] = nm
            note = ""
            if m.file == "nitf_tre_csexrb.py":
                note = (", with `allow_extensions` (nitf_tre.py:22) " + ("true" if m.ext else "false"))
            doc = f"/-- {m.file}:{l0}-{l1}{note}. -/"
            defs.append((m.file, nm, doc + f"\ndef {nm} : Desc :=\n" + "\n".join(emit(rows, 2)) + "\n"))
        for cname, bases, at, tab in m.classes:
            if tab is None:
                continue
            if "tre_tag" in at:
                tres.append((at["tre_tag"] if not suf else at["tre_tag"], names[tab], m.file, cname, suf))
            else:
                others.append((cname, names[tab], m.file, at.get("des_tag")))
    # split over a few modules
    groups = [[], [], [], []]
    size = [0] * 4
    for f, nm, txt in sorted(defs, key=lambda d: -len(d[2])):
        k = size.index(min(size))
        groups[k].append((f, nm, txt))
        size[k] += len(txt)
    os.makedirs(os.path.join(OUT, "Tables"), exist_ok=True)
    for k, g in enumerate(groups):
        with open(os.path.join(OUT, "Tables", f"T{k + 1}.lean"), "w") as o:
            o.write("import Verif.Field\n\n/- Generated by tools/gen_tables.py from the `desc` lists of"
                    " /repo/pynitf; do not edit. -/\n\nnamespace Verif.Tables\n\nopen Verif\n\n")
            for f, nm, txt in sorted(g):
                o.write(txt + "\n")
            o.write("end Verif.Tables\n")
    with open(os.path.join(OUT, "Tables.lean"), "w") as o:
        for k in range(4):
            o.write(f"import Verif.Tables.T{k + 1}\n")
        o.write("\n/- Generated by tools/gen_tables.py; do not edit. -/\n\nnamespace Verif.Tables\n\nopen Verif\n\n")
        o.write("/-- Format strings and functions behind `Fmt.other i`. -/\n")
        o.write("def formats : List (Nat × String) := [\n  " + ",\n  ".join(
            f'({i}, "{k}")' for k, i in sorted(fmt_ids.items(), key=lambda x: x[1])) + "]\n\n")
        o.write("/-- TRE tags and descriptions: every class with a `tre_tag` and a `desc`\n"
                "(registered by `tre_tag_to_cls.add_cls` in each file). -/\n")
        o.write("def tres : List (String × Desc) := [\n  " + ",\n  ".join(
            f'("{t}", {nm})' for t, nm, f, c, suf in tres if not suf) + "]\n\n")
        o.write("/-- The other FieldStruct classes: headers, subheaders, user subheaders, DES. -/\n")
        o.write("def others : List (String × Desc) := [\n  " + ",\n  ".join(
            f'("{c}", {nm})' for c, nm, f, t in others) + "]\n\n")
        o.write("/-- Variants depending on a module level flag. -/\n")
        o.write("def variants : List (String × Desc) := [\n  " + ",\n  ".join(
            f'("{t}", {nm})' for t, nm, f, c, suf in tres if suf) + "]\n\n")
        o.write("/-- Every description shipped with the library. -/\n"
                "def all : List (String × Desc) := tres ++ others ++ variants\n\n")
        o.write("end Verif.Tables\n")
    print(len(tres), "TREs", len(others), "others;", sum(len(r) for m, _ in mods for _, _, r in m.tables), "top rows")


main()
