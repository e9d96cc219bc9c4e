#!/usr/bin/env python3
"""Runs the model of mabo-go (not the proofs) on the inputs of the project's own snapshot tests and compares the text with
the snapshots. A sanity check of the model's fidelity, not a proof. Usage: tools/conformance/go.py"""
import glob, os, subprocess, sys, tempfile
T = "/repo/crates/mabo-go/tests"
SRC = '''
import Verif.Go.Render
import Verif.Parser.Schema
open Mabo.Parse Mabo.Go
def stdX : Std := ⟨fun t => BitVec.ofNat 64 (t.foldl (fun n c => n * 256 + c.toNat) 1),
  fun b => (List.range 8).foldl (fun (acc : List Char × Nat) _ =>
    if acc.2 ≤ 1 then acc else (Char.ofNat (acc.2 % 256) :: acc.1, acc.2 / 256)) ([], b.toNat) |>.1,
  fun c => c.toNat < 32⟩
partial def show_ (parent : String) : Mabo.Go.Output → IO Unit
  | .mk name content modules => do
    let p := if parent = "" then name else parent ++ "/" ++ name
    IO.print ("--- " ++ p ++ ".go\\n\\n" ++ String.ofList content)
    for m in modules do show_ p m
def main (args : List String) : IO Unit := do
  for a in args do
    let s ← IO.FS.readFile a
    IO.print "\\x01"
    match parseSchema stdX s.toList with
    | none => IO.print "no parse"
    | some t =>
      match Mabo.Simplify.simplifySchema true t with
      | none => IO.print "no simplify"
      | some t =>
        match renderSchema stdX "sample" t with
        | none => IO.print "panic"
        | some o => show_ "" o
'''
inputs = sorted(glob.glob(T + "/inputs/*.mabo"))
with tempfile.TemporaryDirectory() as d:
    f = os.path.join(d, "Conf.lean"); open(f, "w").write(SRC)
    here = os.path.join(os.path.dirname(os.path.abspath(__file__)), "..", "..", "lean")
    out = subprocess.run(["lake", "env", "lean", "--run", f] + inputs, cwd=here, capture_output=True, text=True)
if out.returncode: print(out.stdout[-500:], out.stderr[-2000:])
bad = 0
for path, got in zip(inputs, out.stdout.split("\x01")[1:]):
    n = os.path.basename(path)
    want = open(f"{T}/snapshots/render__render@{n}.snap").read().split("\n---\n", 1)[1]
    if got.strip() != want.strip():
        bad += 1
        print("MISMATCH", n)
        for a, b in zip(got.split("\n"), want.split("\n")):
            if a != b: print(" model", repr(a)); print(" snap ", repr(b)); break
print(f"{len(inputs)} files, {bad} mismatches")
sys.exit(bad != 0)
