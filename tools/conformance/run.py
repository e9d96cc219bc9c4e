#!/usr/bin/env python3
"""Runs the model (not the proofs) on the project's own golden files and compares: every input of mabo-parser's tests is
accepted/rejected as recorded, and the printed schema equals the recorded snapshot. A sanity check of the model's
fidelity, not a proof. Usage: tools/conformance/run.py"""
import glob, os, re, subprocess, sys, tempfile
T = "/repo/crates/mabo-parser/tests"
SRC = '''
import Verif.Parser.Schema
open Mabo.Parse
/-- Floats are kept as their text (up to 7 characters), so that printing gives the text back. -/
def stdX : Std := ⟨fun t => BitVec.ofNat 64 (t.foldl (fun n c => n * 256 + c.toNat) 1),
  fun b => (List.range 8).foldl (fun (acc : List Char × Nat) _ =>
    if acc.2 ≤ 1 then acc else (Char.ofNat (acc.2 % 256) :: acc.1, acc.2 / 256)) ([], b.toNat) |>.1,
  fun c => c.toNat < 32⟩
def main (args : List String) : IO Unit := do
  for a in args do
    let s ← IO.FS.readFile a
    match parseSchema stdX s.toList with
    | none => IO.println "\\x01NONE"
    | some t => IO.println "\\x01OK"; IO.print (String.ofList (printSchema stdX t))
'''
inputs = sorted(glob.glob(T + "/inputs/*.mabo")) + sorted(glob.glob(T + "/inputs/invalid/*.mabo"))
with tempfile.TemporaryDirectory() as d:
    f = os.path.join(d, "Conf.lean"); open(f, "w").write(SRC)
    here = os.path.join(os.path.dirname(os.path.abspath(__file__)), "..", "..", "lean")
    out = subprocess.run(["lake", "env", "lean", "--run", f] + inputs, cwd=here, capture_output=True, text=True)
parts = out.stdout.split("\x01")[1:]
bad = 0
for path, part in zip(inputs, parts):
    tag, text = part.split("\n", 1)
    n = os.path.basename(path)
    if "/invalid/" in path:
        ok = tag == "NONE"
    else:
        snap = open(f"{T}/snapshots/parser__print@{n}.snap").read().split("\n---\n", 1)[1]
        # insta trims the end of snapshots; integral floats print without point in Rust, the model's stub keeps the text
        ok = tag == "OK" and text.rstrip() == snap.rstrip()
    if not ok:
        bad += 1
        print("MISMATCH", path); print(text)
print(f"{len(parts)} files, {bad} mismatches")
sys.exit(bad != 0 or len(parts) != len(inputs))
