#!/usr/bin/env python3
"""Translates the test files of /repo/tests into Lean examples about the model.

usage: gen_tests.py OUTDIR   (writes one module per test file)

A small reader for the subset of Rust the test files use. Declarations become values of `Decl`, with the names
serde computes (`rename`, `rename_all`). `assert_eq!`/`assert!` on `schema()`, `type_def()` and `inline()` become
examples about `eval`; the helpers of tests/test_utils/mod.rs are in Verif/Tests/Utils.lean. `to_value`/`from_value`
assertions become derivations of `Ser` and `De`.
"""
import os, re, sys

TESTS = "/repo/tests"
TOK = re.compile(r'''\s+|//(?!/)[^\n]*|(?P<doc>///[^\n]*)|(?P<str>"(?:\\.|[^"\\])*")|(?P<num>\d+)|'''
                 r'''(?P<id>[A-Za-z_][A-Za-z0-9_]*)|(?P<p>::|->|=>|[^\s])''', re.S)

def tokenize(src):
    out, i = [], 0
    while i < len(src):
        m = TOK.match(src, i)
        assert m, src[i:i + 40]
        if m.lastgroup:
            line = src.count("\n", 0, i) + 1
            out.append((m.lastgroup, m.group(m.lastgroup), line))
        i = m.end()
    return out

def unquote(s):
    return re.sub(r'\\(.)', lambda m: {"n": "\n", '"': '"', "\\": "\\"}[m.group(1)], s[1:-1])

def snake(name):
    out = ""
    for i, c in enumerate(name):
        if i > 0 and c.isupper(): out += "_"
        out += c.lower()
    return out

RENAME_VARIANT = {"snake_case": snake}
RENAME_FIELD = {"UPPERCASE": str.upper}
PRIM = {"String": "string", "usize": "usize", "bool": "bool"}

class P:
    def __init__(self, toks):
        self.t, self.i = toks, 0
    def peek(self, k=0):
        return self.t[self.i + k][1] if self.i + k < len(self.t) else None
    def kind(self, k=0):
        return self.t[self.i + k][0] if self.i + k < len(self.t) else None
    def next(self):
        self.i += 1
        return self.t[self.i - 1][1]
    def eat(self, x):
        assert self.peek() == x, (x, self.t[self.i:self.i + 8])
        self.i += 1
    def opt(self, x):
        if self.peek() == x:
            self.i += 1
            return True
        return False
    def group(self):
        """tokens of a bracketed group"""
        close = {"(": ")", "{": "}", "[": "]"}
        stack, start = [close[self.next()]], self.i
        while stack:
            x = self.next()
            if self.t[self.i - 1][0] == "p":
                if x in close: stack.append(close[x])
                elif x == stack[-1]: stack.pop()
        return self.t[start:self.i - 1]

    # attributes and declarations
    def attrs(self):
        a = {"docs": []}
        while True:
            if self.kind() == "doc":
                a["docs"].append(self.next()[3:])
            elif self.peek() == "#":
                self.next()
                g = P(self.group())
                name = g.next()
                if name == "derive":
                    for k, v, _ in g.group():
                        if v in ("Serialize", "Deserialize"): a[v] = True
                elif name == "serde":
                    h = P(g.group())
                    while h.peek():
                        k = h.next()
                        a[k] = unquote(h.next()) if h.opt("=") else True
                        h.opt(",")
            else:
                return a

    def type_(self):
        t = self.next()
        return t

    def fields(self, named, rename_all):
        fs = []
        g = P(self.group())
        while g.peek():
            a = g.attrs()
            if named:
                n = g.next()
                g.eat(":")
            else:
                n = str(len(fs))
            ty = g.type_()
            g.opt(",")
            w = a.get("rename") or (RENAME_FIELD[rename_all](n) if rename_all else n)
            fs.append(dict(named=named, ident=n, name=w, ty=ty,
                           skipDe=bool(a.get("skip") or a.get("skip_deserializing")),
                           skipSer=bool(a.get("skip")), dflt=bool(a.get("default")), flatten=bool(a.get("flatten"))))
        return fs

    def body(self, rename_all):
        if self.peek() == "{": return "named", self.fields(True, rename_all)
        if self.peek() == "(": return "tuple", self.fields(False, None)
        return "unit", []

    def decl(self):
        a = self.attrs()
        kw = self.next()
        name = self.next()
        d = dict(kw=kw, ident=name, name=a.get("rename", name), attrs=a, docs=a["docs"])
        if kw == "struct":
            d["style"], d["fields"] = self.body(a.get("rename_all"))
            self.opt(";")
            d["transparent"] = bool(a.get("transparent"))
        else:
            assert kw == "enum", kw
            d["variants"] = []
            g = P(self.group())
            while g.peek():
                va = g.attrs()
                n = g.next()
                style, fs = g.body(None)
                g.opt(",")
                w = va.get("rename") or (RENAME_VARIANT[a["rename_all"]](n) if "rename_all" in a else n)
                d["variants"].append(dict(ident=n, name=w, style=style, fields=fs, skip=bool(va.get("skip"))))
            d["tag"] = ("untagged",) if a.get("untagged") else \
                ("adjacent", a["tag"], a["content"]) if "content" in a else \
                ("internal", a["tag"]) if "tag" in a else ("external",)
        return d

    # expressions
    def expr(self):
        if self.opt("&"): return self.expr()
        if self.opt("!"): return ("not", self.expr())
        if self.kind() == "str": e = ("str", unquote(self.next()))
        elif self.kind() == "num": e = ("num", int(self.next()))
        elif self.peek() == "[": e = ("list", self.args(self.group()))
        else:
            path = [self.next()]
            while self.opt("::"):
                if self.opt("<"):
                    while self.next() != ">": pass
                else: path.append(self.next())
            if self.opt("!"):
                m, g = path[-1], self.group()
                if m == "json": e = ("json", self.json(P(g)))
                elif m == "object":
                    q, kv = P(g), []
                    while q.peek():
                        k = q.next()
                        q.eat(":")
                        kv.append((k, q.expr()))
                        q.opt(",")
                    e = ("object", kv)
                elif m == "format": e = ("format", self.args(g))
                else: raise Exception(m)
            elif self.peek() == "(":
                e = ("call", path, self.args(self.group()))
            elif self.peek() == "{":
                q, kv = P(self.group()), []
                while q.peek():
                    k = q.next()
                    q.eat(":")
                    kv.append((k, q.expr()))
                    q.opt(",")
                e = ("struct", path, kv)
            else:
                e = ("path", path)
        while self.opt("."):
            m = self.next()
            a = self.args(self.group())
            if m in ("unwrap", "to_string"): continue
            e = ("method", m, e, a)
        return e

    def args(self, g):
        q, out = P(g), []
        while q.peek():
            out.append(q.expr())
            q.opt(",")
        return out

    def json(self, q):
        if q.peek() == "{":
            g, kv = P(q.group()), []
            while g.peek():
                k = unquote(g.next())
                g.eat(":")
                kv.append((k, self.json(g)))
                g.opt(",")
            return ("obj", kv)
        if q.peek() == "[":
            g, l = P(q.group()), []
            while g.peek():
                l.append(self.json(g))
                g.opt(",")
            return ("arr", l)
        if q.kind() == "str": return ("str", unquote(q.next()))
        if q.kind() == "num": return ("num", int(q.next()))
        w = q.next()
        return ("null",) if w == "null" else ("bool", w == "true")

def lstr(s):
    return '"' + s.replace("\\", "\\\\").replace('"', '\\"').replace("\n", "\\n") + '"'

def b(x): return "true" if x else "false"

class Test:
    def __init__(self, decls):
        self.decls = decls
        self.index = {d["ident"]: i for i, d in enumerate(decls)}

    def ty(self, t):
        return f"(.prim .{PRIM[t]})" if t in PRIM else f"(.named {self.index[t]})"

    def field(self, f):
        base = f'exField {lstr(f["name"])} {self.ty(f["ty"])}' if f["named"] else f'exPos {self.ty(f["ty"])}'
        upd = [f"{k} := true" for k in ("skipDe", "skipSer", "dflt", "flatten") if f[k]]
        return "{ " + base + " with " + ", ".join(upd) + " }" if upd else base

    def decl(self, i, d):
        attrs = ", ".join(f".doc (lit {lstr(x)})" for x in d["docs"])
        if d["kw"] == "struct":
            fs = ", ".join(self.field(f) for f in d["fields"])
            fn = "exStruct" if d["style"] == "named" else "exTuple"
            s = f'{fn} {lstr(d["name"])} [{fs}]'
            upd = (["attrs := [" + attrs + "]"] if attrs else []) + (["transparent := true"] if d["transparent"] else [])
            return "{ " + s + " with " + ", ".join(upd) + " }" if upd else s
        tag = d["tag"][0] if len(d["tag"]) == 1 else "(." + d["tag"][0] + " " + " ".join(f"(lit {lstr(x)})" for x in d["tag"][1:]) + ")"
        if not tag.startswith("("): tag = "." + tag
        s = f'exEnum {lstr(d["name"])} {tag} [{", ".join(f"T{i}_{k}" for k in range(len(d["variants"])))}]'
        return "{ " + s + " with attrs := [" + attrs + "] }" if attrs else s

    def defs(self):
        """one definition per declaration and variant, then the program"""
        out = []
        for i, d in enumerate(self.decls):
            ty = "StructDecl" if d["kw"] == "struct" else "EnumDecl"
            for k, v in enumerate(d.get("variants", [])):
                out.append(f"def T{i}_{k} : Variant := {self.variant(v)}")
            out.append(f"def T{i} : {ty} := {self.decl(i, d)}")
        ps = ", ".join(f".{d['kw']} T{i}" for i, d in enumerate(self.decls))
        out.append(f"def P : Program := [{ps}]")
        return "\n".join(out)

    def variant(self, v):
        x = f'exVariant {lstr(v["name"])} .{v["style"]} [{", ".join(self.field(f) for f in v["fields"])}]'
        return "{ " + x + " with skipDe := true, skipSer := true }" if v["skip"] else x

    METHODS = {"schema": "schema", "type_def": "typeDef", "inline": "inline"}

    def term(self, e):
        """Lean term of type Str"""
        k = e[0]
        if k == "str": return f"lit {lstr(e[1])}"
        if k == "path": return {"A": "A", "B": "B", "NULL": "NULL"}[e[1][-1]]
        if k == "call":
            path, args = e[1], e[2]
            if len(path) == 2 and path[1] in self.METHODS:
                self.calls.append((self.METHODS[path[1]], self.ty(path[0])))
                return f"call P .{self.METHODS[path[1]]} {self.ty(path[0])}"
            fn = {"discriminated_union": "discriminatedUnion", "zod_union": "zodUnion", "tuple": "tuple",
                  "adj_tagged": "adjTagged", "optional": "optional"}[path[-1]]
            return fn + " " + " ".join(f"({self.term(a)})" if a[0] != "list" else self.term(a) for a in args)
        if k == "list": return "[" + ", ".join(self.term(a) for a in e[1]) + "]"
        if k == "object":
            return "zodObj [" + ", ".join(f"(lit {lstr(n)}, {self.term(v)})" for n, v in e[1]) + "]"
        if k == "format":
            parts = e[1][0][1].split("{}")
            out = []
            for i, p in enumerate(parts):
                if p: out.append(f"lit {lstr(p)}")
                if i + 1 < len(parts): out.append(self.term(e[1][1 + i]))
            return " ++ ".join(out)
        raise Exception(e)

    def json(self, j):
        k = j[0]
        if k == "null": return ".null"
        if k == "bool": return f".bool {b(j[1])}"
        if k == "num": return f".num (.int {j[1]})"
        if k == "str": return f".str (lit {lstr(j[1])})"
        if k == "arr": return ".arr [" + ", ".join(self.json(x) for x in j[1]) + "]"
        return ".obj [" + ", ".join(f"(lit {lstr(n)}, {self.json(x)})" for n, x in j[1]) + "]"

    # derivations of Ser
    def ser(self, t, v, j):
        if t == "String": return ".string _"
        if t == "bool": return ".bool _"
        if t == "usize": return f".int .usize 0 (2 ^ 64 - 1) {j[1]} (.inr rfl) (by decide) (by decide)"
        i = self.index[t]
        d = self.decls[i]
        J = f"({self.json(j)})"
        if d["kw"] == "struct":
            assert not d["transparent"]
            return f".struct {i} T{i} {J} rfl rfl rfl ({self.ser_body(f'T{i}.fields', d['style'], d['fields'], v, j)})"
        path = v[1]
        n = [x["ident"] for x in d["variants"]].index(path[-1])
        var = d["variants"][n]
        tag = d["tag"][0]
        mem = f"(List.mem_of_getElem? (i := {n}) rfl)"
        style = var["style"]
        if style == "tuple" and len(var["fields"]) == 1 and var["fields"][0]["skipSer"]: style = "unit"
        ev = f"{i} T{i} T{i}_{n} " + "".join(f"(lit {lstr(x)}) " for x in d["tag"][1:])
        if style == "unit":
            return f".{tag}Unit {ev}rfl rfl rfl {mem} rfl rfl"
        if tag == "internal":
            assert style == "named"
            rest = ("obj", j[1][1:])
            return f".internal {ev}{self.members(rest)} rfl rfl rfl {mem} rfl rfl ({self.ser_fields(var['fields'], v, rest)})"
        inner = {"external": lambda: j[1][0][1], "adjacent": lambda: j[1][1][1], "untagged": lambda: j}[tag]()
        return f".{tag} {ev}({self.json(inner)}) rfl rfl rfl {mem} rfl ({self.ser_body(f'T{i}_{n}.fields', style, var['fields'], v, inner)})"

    def members(self, j): return self.json(j)[5:]

    def ser_body(self, fs, style, fields, v, j):
        if style == "named": return f".named {fs} {self.members(j)} ({self.ser_fields(fields, v, j)})"
        if len(fields) == 1: return f".newtype ({self.field(fields[0])}) ({self.json(j)}) ({self.ser(fields[0]['ty'], v[2][0], j)})"
        out, k = ".nil", [(f, x) for f, x in zip(fields, v[2]) if not f["skipSer"]]
        for (f, x), jj in reversed(list(zip(k, j[1]))):
            out = f".cons ({self.ser(f['ty'], x, jj)}) ({out})"
        return f".tuple {fs} (serFields {fs}) {self.json(j)[5:]} (by decide) (.refl _) ({out})"

    def ser_fields(self, fields, v, j):
        vals = dict(v[2])
        out, members = [], dict(j[1])
        for f in fields:
            F = f"({self.field(f)})"
            if f["skipSer"]: out.append((f".skip {F} _ _ rfl", None))
            elif f["flatten"]:
                d = self.decls[self.index[f["ty"]]]
                sub = ("obj", [(g["name"], members[g["name"]]) for g in d["fields"]])
                out.append((f".flat {F} _ {self.members(sub)} _ rfl rfl", self.ser(f["ty"], vals[f["ident"]], sub)))
            else:
                jj = members[f["name"]]
                out.append((f".field {F} _ _ ({self.json(jj)}) rfl rfl rfl", self.ser(f["ty"], vals[f["ident"]], jj)))
        t = ".nil"
        for head, p in reversed(out):
            t = head + (f" ({p})" if p else "") + f" ({t})"
        return t

    # derivations of De
    def de(self, t, j):
        if t == "String": return ".string _"
        if t == "bool": return ".bool _"
        if t == "usize": return f".wide .usize 0 (2 ^ 64 - 1) {j[1]} (.inr (.inr (.inl rfl))) rfl (by decide) (by decide)"
        i = self.index[t]
        d = self.decls[i]
        assert d["kw"] == "struct" and not d["transparent"]
        kept = [f for f in d["fields"] if not f["skipDe"]]
        J = f"({self.json(j)})"
        if d["style"] == "tuple":
            assert len(d["fields"]) != 1
            n = len(j[1])
            out = ".nil"
            for f, jj in reversed(list(zip(kept, j[1]))): out = f".cons ({self.de(f['ty'], jj)}) ({out})"
            gs = "[" + ", ".join(self.field(f) for f in kept[:n]) + "]"
            hs = "[" + ", ".join(self.field(f) for f in kept[n:]) + "]"
            assert all(f["dflt"] for f in kept[n:])
            dfl = "(fun f h => nomatch h)" if n == len(kept) else "(by simp)"
            inner = f".short _ T{i}.fields {gs} {hs} {self.json(j)[5:]} (by decide) rfl {dfl} ({out})"
        else:
            pf = "by simp"
            for f in reversed(d["fields"]):
                if f["skipDe"]: c = "fun h => nomatch h"
                else:
                    jj = dict(j[1])[f["name"]]
                    c = f"fun _ _ => .present _ _ ({self.json(jj)}) rfl rfl nofun ({self.de(f['ty'], jj)})"
                pf = f"List.forall_mem_cons.2 (.intro ({c}) ({pf}))"
            inner = f".named _ T{i}.fields {self.members(j)} (by decide +kernel) (fun _ h => nomatch h) ({pf}) (by simp [T{i}, exStruct, exField])"
        return f".struct {i} T{i} {J} rfl rfl rfl ({inner})"

    def assertion(self, e, out):
        self.calls = []
        if e[0] == "eq":
            out.append(f"example : {self.term(e[1])} = {self.term(e[2])} := by decide +kernel")
        else:
            neg, x = False, e[1]
            if x[0] == "not": neg, x = True, x[1]
            assert x[0] == "method" and x[1] == "contains"
            out.append(f"example : contains ({self.term(x[2])}) ({self.term(x[3][0])}) = {b(not neg)} := by decide +kernel")
        for m, t in self.calls:
            if t.startswith("(.named"): self.needed.add((m, t))

def parse_decls(p, decls):
    while p.peek(): decls.append(p.decl())

def run_test(name, line, toks, out, file):
    p = P(toks)
    decls, stmts, lets = [], [], {}
    while p.peek():
        if p.peek() == "test_case":
            p.next(); p.eat("!")
            parse_decls(P(p.group()), decls)
        elif p.peek() == "#":
            decls.append(p.decl())
        elif p.peek() == "let":
            p.next()
            n = p.next()
            ty = None
            if p.opt(":"): ty = p.type_()
            p.eat("=")
            e = p.expr()
            p.eat(";")
            lets[n] = (ty, e)
        elif p.peek() in ("assert_eq", "assert"):
            m = p.next()
            p.eat("!")
            a = p.args(p.group())
            p.opt(";")
            stmts.append((m, a))
        else:
            raise Exception((name, p.t[p.i:p.i + 6]))
    t = Test(decls)
    t.needed = set()
    ex = []
    def resolve(e):
        return lets[e[1][0]] if e[0] == "path" and len(e[1]) == 1 and e[1][0] in lets else (None, e)
    for m, a in stmts:
        if m == "assert": t.assertion(("is", a[0]), ex); continue
        ts = [resolve(x) for x in a]
        es = [x[1] for x in ts]
        fns = [x[1][-1] if x[0] == "call" else None for x in es]
        if "to_value" in fns or "to_string" in fns:
            v = es[0][2][0]
            j = es[1][1] if es[1][0] == "json" else ("num", int(es[1][1]))
            tn = v[1][0]
            # members of an object are unordered in a `Value`; the derivation gives the order written
            jj = order(t, tn, v, j)
            ex.append(f"example : Ser P false {t.ty(tn)} ({t.json(jj)}) :=\n  {t.ser(tn, v, jj)}")
        elif "from_value" in fns:
            k = fns.index("from_value")
            v = es[1 - k]
            j = es[k][2][0][1]
            tn = v[1][0]
            ex.append(f"example : De P {t.ty(tn)} ({t.json(j)}) :=\n  {t.de(tn, j)}")
        else:
            t.assertion(("eq", es[0], es[1]), ex)
    for m, ty in sorted(t.needed):
        ex.append(f"example : (eval P 20 .{m} {ty}).isSome = true := by decide +kernel")
    out.append(f"/-! `{file}:{line}` -/\nnamespace {name}\n\n{t.defs()}\n\n" + "\n".join(ex) + f"\n\nend {name}\n")
    return len(ex)

def order(t, tn, v, j):
    """the document with the members in the order serde writes them"""
    if tn in PRIM or j[0] != "obj": return j
    d = t.decls[t.index[tn]]
    if d["kw"] == "struct":
        return ("obj", order_fields(t, d["fields"], v, dict(j[1])))
    var = [x for x in d["variants"] if x["ident"] == v[1][-1]][0]
    tag = d["tag"]
    m = dict(j[1])
    if tag[0] == "internal": return ("obj", [(tag[1], m[tag[1]])] + order_fields(t, var["fields"], v, m)) if var["style"] == "named" else j
    if tag[0] == "adjacent":
        r = [(tag[1], m[tag[1]])]
        if tag[2] in m: r.append((tag[2], ("obj", order_fields(t, var["fields"], v, dict(m[tag[2]][1]))) if var["style"] == "named" else m[tag[2]]))
        return ("obj", r)
    return j

def order_fields(t, fields, v, m):
    out = []
    for f in fields:
        if f["skipSer"]: continue
        if f["flatten"]:
            out += [(g["name"], m[g["name"]]) for g in t.decls[t.index[f["ty"]]]["fields"]]
        else: out.append((f["name"], m[f["name"]]))
    return out

HEAD = """import Verif.Tests.Utils

/-!
# `{file}`, replayed on the model

Generated by tools/gen_tests.py from the test file: the same declarations, the same assertions.
-/

set_option maxRecDepth 4000

namespace Verif.Tests.{mod}
open Verif Verif.Js Verif.Schema Verif.Spec Verif.Props

"""

def main():
    outdir = sys.argv[1]
    mods, total = [], 0
    for f in sorted(os.listdir(TESTS)):
        if not f.endswith(".rs"): continue
        toks = tokenize(open(f"{TESTS}/{f}").read())
        mod = "".join(w.capitalize() for w in f[:-3].split("_"))
        out = [HEAD.format(file="tests/" + f, mod=mod)]
        p = P(toks)
        n = 0
        if f == "doc.rs":
            decls = []
            cases = []
            while p.peek():
                if p.kind() == "doc": decls.append(p.decl())
                elif p.peek() == "case" and p.peek(1) == "!":
                    p.next(); p.next()
                    g = P(p.group())
                    a = g.next(); g.eat(",")
                    cases.append((a, g.next()))
                else: p.next()
            t = Test(decls)
            out.append(f"{t.defs()}\n\n/-- `DOC`: `tests/doc.rs:82` -/\ndef DOC : Str := lit \"/**\\n* Hello World\\n*/\\n\"\n")
            for a, x in cases:
                out.append(f"/-! `{a}` -/\nexample : docsOf P {t.index[x]} = some (some DOC) := by decide +kernel\n")
                n += 1
        else:
            while p.peek():
                if p.peek() == "fn" and p.peek(1) != "main":
                    p.next()
                    line = p.t[p.i][2]
                    name = p.next()
                    p.group()
                    n += run_test(name, line, p.group(), out, "tests/" + f)
                else: p.next()
        out.append(f"end Verif.Tests.{mod}")
        open(f"{outdir}/{mod}.lean", "w").write("\n".join(out) + "\n")
        mods.append(mod)
        total += n
    print(total, "assertions", mods)

main()
