#!/usr/bin/env python3
"""Runs the model of mabo-build's code generator (not the proofs) on the inputs of the project's own snapshot tests and
compares the tokens with the snapshots, up to what the printer prettyplease changes (commas before closing brackets and
behind blocks, braces in an arm, empty statements) and the spelling of float and bytes literals.
A sanity check of the model's fidelity, not a proof. Usage: tools/conformance/rust.py"""
import glob, os, re, subprocess, sys, tempfile
T = "/repo/crates/mabo-build/tests"
SRC = '''
import Verif.Rust.Emit
import Verif.Parser.Schema
open Mabo.Parse Mabo.Rust
def stdX : Std := ⟨fun t => BitVec.ofNat 64 (t.foldl (fun n c => n * 256 + c.toNat) 1),
  fun b => (List.range 8).foldl (fun (acc : List Char × Nat) _ =>
    if acc.2 ≤ 1 then acc else (Char.ofNat (acc.2 % 256) :: acc.1, acc.2 / 256)) ([], b.toNat) |>.1,
  fun c => c.toNat < 32⟩
def main (args : List String) : IO Unit := do
  for a in args do
    let s ← IO.FS.readFile a
    IO.print "\\x01"
    match parseSchema stdX s.toList with
    | none => IO.print "no parse"
    | some t =>
      match Mabo.Simplify.simplifySchema true t with
      | none => IO.print "no simplify"
      | some t =>
        match compileSchema .vecU8 t with
        | none => IO.print "panic"
        | some is => IO.print ("\\x02".intercalate (Item.list is))
'''
TOK = re.compile(r'''///[^\n]*|b"(?:[^"\\]|\\.)*"|"(?:[^"\\]|\\.)*"|-?\d+\.\d+|-?\d+|\w+|<float>|<bytes>|=>|->|::|\|\||[^\s]''', re.S)
def tok(s):
    out = []
    for t in TOK.findall(s):
        if t.startswith("///"): out += ["#", "[", "doc", "=", '"' + t[3:] + '"', "]"]
        elif t == "||": out += ["|", "|"]
        elif t.startswith('b"'): out.append("<bytes>")
        elif re.fullmatch(r"-?\d+\.\d+", t) and not (out and out[-1] == "."): out.append("<float>")
        else: out.append(t)
    return out
ESC = {"n": "\n", "r": "\r", "t": "\t", "0": "\0", "\\": "\\", '"': '"'}
def doc(t):  # the snapshots escape strings and have no blanks at the end of a line
    if not t.startswith('"'): return t
    t = t[1:-1]
    t = re.sub(r"\\u\{(\w+)\}|\\(.)", lambda m: chr(int(m[1], 16)) if m[1] else ESC[m[2]], t) if not RAW else t
    return '"' + t.rstrip() + '"'
RAW = False
def norm(ts):
    ts = [doc(t) for t in ts if t]
    # braces around a single expression in an arm
    i = 0
    while i < len(ts):
        if ts[i] == "=>" and ts[i+1] == "{":
            d, j = 0, i + 1
            while True:
                d += ts[j] == "{"; d -= ts[j] == "}"
                if d == 0: break
                j += 1
            body = ts[i+2:j]
            if ts[i+3] == "=" and body[-1] == ";": body = body[:-1]
            if ts[i+3] == "=" or ";" not in body: ts = ts[:i+1] + body + ([","] if ts[j+1] != "," else []) + ts[j+1:]
        i += 1
    out = []
    for t in ts:
        if t in ("}", ")", "]", ">", "|") and out and out[-1] == ",": out.pop()
        if t == "," and out and out[-1] == "}": continue
        if t == ";" and out and out[-1] in (";", "{"): continue
        out.append(t)
    return out
inputs = sorted(glob.glob(T + "/inputs/*.mabo")) + sorted(glob.glob(T + "/inputs_extra/*.mabo"))
with tempfile.TemporaryDirectory() as d:
    f = os.path.join(d, "Conf.lean"); open(f, "w").write(SRC)
    here = os.path.join(os.path.dirname(os.path.abspath(__file__)), "..", "..", "lean")
    out = subprocess.run(["lake", "env", "lean", "--run", f] + inputs, cwd=here, capture_output=True)
if out.returncode: print(out.stdout[-500:], out.stderr[-2000:])
bad = 0
for path, got in zip(inputs, out.stdout.decode().split("\x01")[1:]):
    n = os.path.basename(path)
    kind = "compile_extra" if "inputs_extra" in path else "compile"
    want = open(f"{T}/snapshots/compiler__{kind}@{n}.snap").read().split("\n---\n", 1)[1]
    RAW = True; g = norm(got.split("\x02"))
    RAW = False; w = norm(tok(want))
    if g != w:
        bad += 1
        print("MISMATCH", n, len(g), len(w))
        for i, (a, b) in enumerate(zip(g, w)):
            if a != b: print(" model", " ".join(g[max(0, i-8):i+8])); print(" snap ", " ".join(w[max(0, i-8):i+8])); break
print(f"{len(inputs)} files, {bad} mismatches")
sys.exit(bad != 0)
