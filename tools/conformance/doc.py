#!/usr/bin/env python3
"""Runs the model of mabo-doc (not the proofs) on the inputs of the project's own snapshot tests and compares with the
snapshots: the written files in order, titles, links with labels, the style sheet and the text of each definition; and
the pages character by character (with a stand-in for the conversion of Markdown).
A sanity check of the model's fidelity, not a proof. Usage: tools/conformance/doc.py"""
import glob, html, os, re, subprocess, sys, tempfile
T = "/repo/crates/mabo-doc/tests"
SRC = '''
import Verif.Doc.Html
open Mabo.Parse Mabo.Doc
def stdX : Std := ⟨fun t => BitVec.ofNat 64 (t.foldl (fun n c => n * 256 + c.toNat) 1),
  fun b => (List.range 8).foldl (fun (acc : List Char × Nat) _ =>
    if acc.2 ≤ 1 then acc else (Char.ofNat (acc.2 % 256) :: acc.1, acc.2 / 256)) ([], b.toNat) |>.1,
  fun c => c.toNat < 32⟩
def main (args : List String) : IO Unit := do
  for a in args do
    let s ← IO.FS.readFile a
    let stem := ((a.splitOn "/").getLast!.splitOn ".").head!
    IO.println "\\x01FILE"
    match parseSchema stdX s.toList with
    | none => pure ()
    | some t =>
      match Mabo.Simplify.simplifySchema true t with
      | none => pure ()
      | some t =>
        for (p, pg) in writeOutput [] (renderSchema stdX true stem t) do
          IO.println ("\\x02" ++ String.intercalate "/" (p.map String.ofList))
          IO.println pg.title
          IO.println pg.kind
          IO.println (String.ofList pg.stylesheet)
          for l in pg.trail ++ pg.tables do
            IO.println ("\\x03" ++ String.ofList l.href ++ " " ++ l.label)
          match pg.nextId with
          | some (some n) => IO.println ("\\x05" ++ toString n.toNat)
          | _ => pure ()
          for r in pg.fields ++ (pg.variants.map (fun v => v.2.2.2)).flatten do
            IO.println ("\\x06" ++ r.name ++ " " ++ String.ofList r.ty ++ " " ++ toString r.id.toNat)
          match pg.definition with
          | some d => IO.println ("\\x04" ++ String.ofList d)
          | none => pure ()
        IO.println "\\x0fHTML"
        let md : Markdown := ⟨fun t => '\\x07' :: t ++ ['\\x08'], fun n t => '\\x0e' :: (toString n).toList ++ [':'] ++ t ++ ['\\x08']⟩
        for (p, h) in htmlSchema stdX md true [] stem t do
          IO.println ("\\x0b" ++ String.intercalate "/" (p.map String.ofList))
          IO.print ((h.map String.ofList).getD "panic")
'''
inputs = sorted(glob.glob(T + "/inputs/*.mabo"))
with tempfile.TemporaryDirectory() as d:
    f = os.path.join(d, "Conf.lean"); open(f, "w").write(SRC)
    here = os.path.join(os.path.dirname(os.path.abspath(__file__)), "..", "..", "lean")
    out = subprocess.run(["lake", "env", "lean", "--run", f] + inputs, cwd=here, capture_output=True, text=True)
if out.returncode: print(out.stdout[-500:], out.stderr[-2000:])
def comment(t):
    """Markdown of the comments of the inputs; anything but plain paragraphs is not compared."""
    t = t.strip()
    if not t: return ""
    if all(re.fullmatch(r"[A-Z][\w ,()'/-]*[.:]?", l.strip()) for l in t.split("\n")):
        return re.escape("<p>" + "\n".join(l.strip() for l in t.split("\n")) + "</p>")
    return "(?s:<.*?>)"
def inline(t):
    t = html.escape(t, quote=False)
    t = re.sub(r"\*\*(.*?)\*\*", r"<strong>\1</strong>", t)
    t = re.sub(r"`(.*?)`", r"<code>\1</code>", t)
    return re.sub(r"\b_unknown_", "<em>unknown</em>", t)
def sizes(t, n):
    """Markdown of nested lists, with the indentation."""
    lines = t.split("\n"); out = ["<p>" + inline(lines[0]) + "</p>"]; depth = 0
    for l in lines[1:]:
        d = (len(l) - len(l.lstrip())) // 2; item = inline(l.strip()[2:])
        if d > depth: out += ["<ul>"] * (d - depth)
        else:
            out[-1] += "</li>" if d == depth else "</li>"
            for _ in range(depth - d): out += ["</ul>", "</li>"]
        depth = d; out.append("<li>" + item)
    if depth:
        out[-1] += "</li>"
        for i in range(depth): out += ["</ul>"] + (["</li>"] if i + 1 < depth else [])
    return re.escape(("\n" + " " * n).join(out))
def pattern(h):
    r = ""
    for p in re.split("([\x07\x0e][^\x08]*\x08)", h):
        if p[:1] == "\x07": r += comment(p[1:-1])
        elif p[:1] == "\x0e": n, t = p[1:-1].split(":", 1); r += sizes(t, int(n))
        else: r += re.escape(p)
    return r
badhtml = 0
def norm(path, title, kind, css, links, nid, rows, d):
    return (path, title, kind, css, tuple(links), nid, tuple(rows), d)
bad = pages = 0
for path, part in zip(inputs, out.stdout.split("\x01")[1:]):
    got = []
    part, htmls = part.split("\x0fHTML\n")
    htmls = [h.split("\n", 1) for h in htmls.split("\x0b")[1:]]
    for pg in part.split("\x02")[1:]:
        d = None
        if "\x04" in pg: pg, d = pg.split("\x04", 1); d = d.rstrip("\n")
        lines = pg.rstrip("\n").split("\n")
        links = [l[1:] for l in lines if l.startswith("\x03")]
        nid = [l[1:] for l in lines if l.startswith("\x05")]
        rows = [l[1:] for l in lines if l.startswith("\x06")]
        got.append(norm(lines[0], lines[1], lines[2], lines[3], links, nid, rows, d))
    n = os.path.basename(path)
    snap = open(f"{T}/snapshots/render__render@{n}.snap").read().split("\n---\n", 1)[1]
    want = []
    for pg in re.split(r"(?:^|\n\n)--- ", snap)[1:]:
        fn, body = pg.split("\n", 1)
        mf, mh = htmls[len(want)]
        ok = mf.split("/", 1)[1] == fn.strip() and re.fullmatch(pattern(mh), body.strip("\n").replace("\xa0", " "))
        if not ok: badhtml += 1; print("HTML", n, fn)
        title = html.unescape(re.search(r"<title>(.*) - Mabo</title>", body).group(1))
        kind = re.search(r"<h2>\s*(\w+)", body).group(1)
        css = re.search(r'stylesheet" href="([^"]*)"', body).group(1)
        links = [f"{h} {html.unescape(l)}" for h, l in re.findall(r'<a [^>]*?href="([^"]*)">([^<]*)</a>', body) if h.endswith("html") and "://" not in h]
        nid = re.findall(r"next free ID is <code[^>]*>(\d+)", body)
        rows = [f"{html.unescape(a)} {html.unescape(b)} {c}" for a, b, c in re.findall(
            r'field-name">([^<]*)</span>:\s*<span class="field-type">([^<]*)</span>\s*<span class="field-id">@(\d+)', body)]
        m = re.search(r'<pre class="item-definition my-2">(.*?)</pre>', body, re.S)
        want.append(norm(fn.strip(), title, kind, css, links, nid, rows, html.unescape(m.group(1)) if m else None))
    pages += len(want)
    if got != want:
        bad += 1
        print("MISMATCH", n)
        for a, b in zip(got, want):
            if a != b: print(" model", a); print(" snap ", b); break
        else: print(len(got), len(want))
print(f"{len(inputs)} files, {pages} pages, {bad} mismatches, {badhtml} pages with other HTML")
sys.exit(bad + badhtml != 0)
