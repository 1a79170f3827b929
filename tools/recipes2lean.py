#!/usr/bin/env python3
"""Write the shipped recipes (endf_parserpy/endf_recipes) as terms of the type `Prog`.

usage: recipes2lean.py <endf_recipes directory> > Verif/Model/Shipped.lean

A recursive descent parser for the grammar in endf_lark_ebnf.py, restricted to what the shipped recipes use.
"""
import ast
import re
import sys
from pathlib import Path

TOK = re.compile(
    r"(?P<ws>[ \t\r\n]+|\#[^\n]*)|(?P<str>\"[^\"]*\")|(?P<num>\d+\.\d*|\d*\.\d+|\d+)|(?P<name>[A-Za-z][A-Za-z0-9_]*)"
    r"|(?P<op>:=|==|!=|>=|<=|\(/|[-+*/%()\[\]{},:<>=?])"
)
RELS = {">": "gt", "<": "lt", "!=": "ne", "==": "eq", ">=": "ge", "<=": "le"}


def tokenize(text):
    pos, out = 0, []
    while pos < len(text):
        m = TOK.match(text, pos)
        if m is None:
            raise SyntaxError(f"{text[pos:pos+20]!r}")
        if m.lastgroup != "ws":
            out.append((m.lastgroup, m.group(), text.count("\n", 0, pos)))
        pos = m.end()
    return out


class Parser:
    def __init__(self, text):
        self.t = tokenize(text)
        self.i = 0

    def peek(self, k=0):
        return self.t[self.i + k][1] if self.i + k < len(self.t) else None

    def kind(self, k=0):
        return self.t[self.i + k][0] if self.i + k < len(self.t) else None

    def next(self):
        self.i += 1
        return self.t[self.i - 1][1]

    def need(self, x):
        y = self.next()
        if y != x:
            raise SyntaxError(f"{x!r} expected, {y!r} found, line {self.t[self.i-1][2]}")

    # expressions

    def num(self):
        s = self.next()
        if "." in s:
            a, b = s.split(".")
            n, d = int((a + b) or "0"), 10 ** len(b)
            return f"(.num (.flt {n}))" if d == 1 or n == 0 else f"(.num (.flt ({n} / {d})))"
        return f"(.int {s})"

    def ref(self):
        assert self.kind() == "name"
        name, idx = self.next(), []
        if self.peek() == "[" and self.t[self.i][2] == self.t[self.i - 1][2] and self.peek(1) != "lookahead":
            self.next()
            while True:
                if self.kind() == "name":
                    idx.append(f'.var "{self.next()}"')
                else:
                    idx.append(f".num {self.next()}")
                if self.next() == "]":
                    break
        return f'⟨"{name}", [{", ".join(idx)}]⟩'

    def mulpart(self):
        x = self.peek()
        if x == "-":
            self.next()
            return f"(.neg {self.mulpart()})"
        if x == "(":
            self.next()
            e = self.expr()
            self.need(")")
            return e
        if self.kind() == "num":
            n = self.num()
            if self.peek() == "?":
                self.next()
                return f"(.desired {n})"
            return f"(.num {n})"
        r = self.ref()
        if self.peek() == "?":
            self.next()
            return f"(.incons {r})"
        return f"(.var {r})"

    def addpart(self, stop):
        e = self.mulpart()
        while self.peek() in ("*", "/", "%") and not (self.peek() == "/" and stop):
            op = {"*": "mul", "/": "div", "%": "mod"}[self.next()]
            e = f"(.{op} {e} {self.mulpart()})"
        return e

    def expr(self, stop=False):
        e = self.addpart(stop)
        while self.peek() in ("+", "-"):
            op = {"+": "add", "-": "sub"}[self.next()]
            e = f"(.{op} {e} {self.addpart(stop)})"
        return e

    # conditions

    def comparison(self):
        if self.peek() == "(":
            at = self.i
            try:
                self.next()
                c = self.disj()
                self.need(")")
                return c
            except (SyntaxError, KeyError, AssertionError):
                self.i = at
        a = self.expr()
        r = RELS[self.next()]
        return f"(.cmp .{r} {a} {self.expr()})"

    def conj(self):
        c = self.comparison()
        while self.peek() == "and":
            self.next()
            c = f"(.and {c} {self.comparison()})"
        return c

    def disj(self):
        c = self.conj()
        while self.peek() == "or":
            self.next()
            c = f"(.or {c} {self.conj()})"
        return c

    # records

    def fields(self, n):
        """the last field ends at a slash, the shipped recipes have no quotients there outside of brackets"""
        fs = []
        for k in range(n):
            fs.append(self.expr(stop=(k == n - 1)))
            if k < n - 1:
                self.need(",")
        return f"[{', '.join(fs)}]"

    def list_body(self, end):
        xs = []
        while self.peek() != end:
            x = self.peek()
            if x == ",":
                self.next()
            elif x == "PADLINE":
                self.next()
                xs.append(".pad")
            elif x == "{":
                self.next()
                body = self.list_body("}")
                self.need("}")
                self.need("{")
                v = self.next()
                self.need("=")
                a = self.expr()
                self.need("to")
                b = self.expr()
                self.need("}")
                xs.append(f'(.loop "{v}" {a} {b} {body})')
            else:
                xs.append(f"(.expr {self.expr()})")
        return f"(lseqs [{', '.join(xs)}])"

    def table_name(self):
        if self.peek() == "(" and self.peek(1) != "/":
            # a section may follow the record: its head is alone on its line
            line = self.t[self.i - 1][2]
            if self.t[self.i][2] != line:
                return "none"
            self.next()
            r = self.ref()
            self.need(")")
            return f"(some {r})"
        return "none"

    def record(self):
        self.need("[")
        spec = []
        for key in ("mat", "mf", "mt"):
            x = self.next()
            if x not in ("MAT", "MF", "MT"):
                spec.append(f"{key} := some {x}")
            if key != "mt":
                self.need(",")
        self.need("/")
        c = f"{{ {', '.join(spec)} }}" if spec else "{}"
        # the type of the record is behind the closing bracket
        depth, j = 1, self.i
        while depth:
            if self.t[j][1] == "[":
                depth += 1
            if self.t[j][1] == "]":
                depth -= 1
            j += 1
        kind = self.t[j][1]
        if kind == "TEXT":
            fs = []
            while True:
                r = n = "none"
                if self.kind() == "name":
                    r = f"(some {self.ref()})"
                if self.peek() == "{":
                    self.next()
                    n = f"(some {self.next()})"
                    self.need("}")
                fs.append(f"⟨{r}, {n}⟩")
                if self.peek() != ",":
                    break
                self.next()
            out = f".text {c} [{', '.join(fs)}]"
        elif kind in ("HEAD", "CONT"):
            out = f".cont {'true' if kind == 'HEAD' else 'false'} {c} {self.fields(6)}"
        elif kind == "DIR":
            for x in ("blank", ",", "blank", ","):
                self.need(x)
            out = f".dir {c} {self.fields(4)}"
        elif kind == "INTG":
            fs = self.fields(3)
            self.need("{")
            nd = self.expr()
            self.need("}")
            out = f".intg {c} {fs} {nd}"
        elif kind == "TAB1":
            fs = self.fields(6)
            self.need("/")
            x = self.ref()
            self.need("/")
            y = self.ref()
            out = f".tab1 {c} {fs} {x} {y}"
        elif kind == "TAB2":
            fs = self.fields(6)
            self.need("/")
            self.ref()
            out = f".tab2 {c} {fs}"
        elif kind == "LIST":
            fs = self.fields(6)
            self.need("/")
            out = f".list {c} {fs} {self.list_body(']')}"
        else:
            raise SyntaxError(kind)
        self.need("]")
        self.need(kind)
        if kind in ("TAB1", "TAB2", "LIST"):
            out += f" {self.table_name()}"
        return f".act ({out})"

    # control flow

    def block(self, ind, *ends):
        xs = []
        while self.peek() not in ends:
            xs.append(self.statement(ind + 2))
        pad = "\n" + " " * (ind + 2)
        if not xs:
            return ".skip"
        return f"seqs [{pad}" + f",{pad}".join(xs) + "]"

    def condition(self, ind):
        c = self.disj()
        look = "none"
        if self.peek() == "[":
            self.next()
            self.need("lookahead")
            self.need("=")
            look = f"(some {self.expr()})"
            self.need("]")
        self.need(":")
        thn = self.block(ind, "elif", "else", "endif")
        x = self.next()
        if x == "endif":
            els = ".skip"
        elif x == "else":
            self.need(":")
            els = self.block(ind, "endif")
            self.need("endif")
        else:
            els = self.condition(ind)
        return f".ite {c} {look} ({thn})\n{' ' * ind}({els})"

    def statement(self, ind):
        x = self.peek()
        if x == "[":
            return self.record()
        if x == "SEND":
            self.next()
            return ".act .send"
        if x == "stop":
            self.next()
            self.need("(")
            if self.peek() != ")":
                self.next()
            self.need(")")
            return ".act .stop"
        if x == "for":
            self.next()
            v = self.next()
            self.need("=")
            a = self.expr()
            self.need("to")
            b = self.expr()
            self.need(":")
            body = self.block(ind, "endfor")
            self.need("endfor")
            return f'.loop "{v}" {a} {b} ({body})'
        if x == "if":
            self.next()
            return self.condition(ind)
        if x == "(":
            self.next()
            r = self.ref()
            self.need(")")
            body = self.block(ind, "(/")
            self.need("(/")
            r2 = self.ref()
            self.need(")")
            assert r == r2, (r, r2)
            return f".sect {r} ({body})"
        if self.kind() == "name" and self.peek(1) == ":=":
            n = self.next()
            self.next()
            return f'.abbr "{n}" {self.expr()}'
        raise SyntaxError(f"{x!r}, line {self.t[self.i][2]}")


def lean_name(lib, var):
    n = var.replace("ENDF_RECIPE_", "").lower()
    return (lib.replace("endf6_ext", "ext") + "_" if lib != "endf6" else "") + n


def main():
    root = Path(sys.argv[1])
    out, names, texts = [], [], {}
    for lib in ("endf6", "endf6_ext", "jendl", "pendf"):
        files = sorted((root / lib).glob("endf_recipe_*.py"), key=lambda f: ("mf31_mt" in f.name, f.name))
        for f in files:
            src = f.read_text()
            for node in ast.parse(src).body:
                if not isinstance(node, ast.Assign):
                    continue
                if isinstance(node.value, ast.Call):  # MF31: the recipe for MF33 with another number
                    pat, new, _ = node.value.args
                    text = re.sub(pat.value, new.value, texts["ENDF_RECIPE_MF33"])
                else:
                    text = texts[node.targets[0].id] = ast.literal_eval(node.value)
                p = Parser(text)
                body = p.block(2, None)
                n = lean_name(lib, node.targets[0].id)
                names.append(n)
                out.append(f"/-- {lib}/{f.name}:{node.lineno}-{node.end_lineno} -/\ndef {n} : Prog :=\n  {body}\n")
    print(HEAD)
    text = "\n".join(out)
    text = re.sub(r'\(\.var ⟨("\w+"), \[\]⟩\)', r"v \1", text)
    text = re.sub(r'\(\.var ⟨("\w+"), (\[[^]]*\])⟩\)', r"x \1 \2", text)
    text = re.sub(r"\(\.num \(\.int (\d+)\)\)", r"n \1", text)
    text = re.sub(r"\(\.num \(\.num \(\.flt (\d+)\)\)\)", r"f \1", text)
    text = re.sub(r'(?<=[( ])(v "\w+"|x "\w+" \[[^]]*\]|n \d+|f \d+)(?= [(vxnf⟨]|\))', r"(\1)", text)
    text = re.sub(r'(\.\w+ \([^()]*\)) (v "\w+"|x "\w+" \[[^]]*\]|n \d+|f \d+)(?=[) ])', r"\1 (\2)", text)
    print(text)
    print("end Verif.Shipped")


HEAD = """import Verif.Model.Recipe
/-
The recipes in `endf_parserpy/endf_recipes` as syntax trees.  Written by `tools/recipes2lean.py` from the texts; comments,
stop messages, the names of the interpolation variables of TAB2 records and the texts of decimal numbers are left out.
-/
namespace Verif.Shipped

def seqs : List Prog → Prog
  | [] => .skip
  | [a] => a
  | a :: as => .seq a (seqs as)

def v (n : Name) : Expr := .var ⟨n, []⟩
def x (n : Name) (is : List Idx) : Expr := .var ⟨n, is⟩
def n (k : Int) : Expr := .num (.int k)
def f (q : Rat) : Expr := .num (.num (.flt q))

def lseqs : List LBody → LBody
  | [] => .nil
  | [a] => a
  | a :: as => .seq a (lseqs as)
"""

if __name__ == "__main__":
    main()
