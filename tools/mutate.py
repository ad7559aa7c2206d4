"""Tests the theorems against wrong programs.

Usage: mutate.py sync, then mutate.py deps, then mutate.py MUTANTS.json OUT.jsonl [--through]
With --through failing proofs are replaced in the copy so that the modules that import them are checked as well.
Works in a scratch copy (/tmp/mut). Each mutant replaces a piece of text in a definition of the model; the copy is rebuilt, and
the declarations that fail are collected, together with the property theorems that use them (deps.json, written by the program below).
"""
import json
import os
import re
import subprocess
import sys

SRC = "/verif/lean"
DST = "/tmp/mut/lean"


DEPS = r'''
import Verif
import Lean
open Lean
def main' : MetaM Unit := do
  let env ← getEnv
  let isOurs (n : Name) : Bool := (`SP).isPrefixOf n
  -- direct deps
  let mut direct : Std.HashMap Name (Array Name) := {}
  for (n, ci) in env.constants.map₁.toList do
    if isOurs n then
      let used := (ci.type.getUsedConstants ++ (match ci.value? (allowOpaque := true) with | some v => v.getUsedConstants | none => #[])).filter isOurs
      direct := direct.insert n used
  let mut entries : Array String := #[]
  for (n, _) in direct.toList do
    let last := match n with | .str _ l => l | _ => ""
    if last.length > 3 && last.front == 'C' && (last.drop 1).front.isDigit && (last.drop 2).front.isDigit then
      -- transitive
      let mut seen : NameSet := {}
      let mut stack := #[n]
      while !stack.isEmpty do
        let t := stack.back!
        stack := stack.pop
        if !seen.contains t then
          seen := seen.insert t
          for u in direct.getD t #[] do
            if !seen.contains u then stack := stack.push u
      let names := seen.toList.map fun m => "\"" ++ (m.replacePrefix `SP .anonymous).toString ++ "\""
      entries := entries.push ("\"" ++ (n.replacePrefix `SP .anonymous).toString ++ "\": [" ++ ", ".intercalate names ++ "]")
  IO.FS.writeFile "/tmp/mut/deps.json" ("{" ++ ",\n".intercalate entries.toList ++ "}")
#eval main'
'''


def write_deps():
    open("/tmp/mut/deps.lean", "w").write(DEPS)
    subprocess.run(["lake", "env", "lean", "/tmp/mut/deps.lean"], cwd=DST, check=True)


def sync():
    os.makedirs("/tmp/mut", exist_ok=True)
    subprocess.run(["rm", "-rf", DST], check=True)
    subprocess.run(["cp", "-a", SRC, DST], check=True)


def enclosing(path, line):
    lines = open(path).read().split("\n")
    for i in range(min(line, len(lines)) - 1, -1, -1):
        m = re.match(r"(?:@\[.*?\] )?(?:private |protected |noncomputable )*(theorem|lemma|def|instance|example|structure|abbrev|inductive)\s*(\S*)", lines[i])
        if m:
            name = m.group(2) if m.group(1) != "example" else "example at line %d" % (i + 1)
            return m.group(1), name
    return "?", "?"


def build():
    r = subprocess.run(["lake", "build"], cwd=DST, capture_output=True, text=True)
    out = r.stdout + r.stderr
    failed = []
    for m in re.finditer(r"^error: (Verif/\S+\.lean):(\d+):", out, re.M):
        kind, name = enclosing(os.path.join(DST, m.group(1)), int(m.group(2)))
        item = (m.group(1), name)
        if item not in failed:
            failed.append(item)
    return r.returncode, failed


def admit(path, name):
    """Replaces the proof of a theorem in the scratch copy, so that the modules that import it can be checked as well."""
    text = open(path).read()
    if name.startswith("example at line "):
        start = sum(len(l) + 1 for l in text.split("\n")[:int(name.split()[-1]) - 1])
    else:
        m = re.search(r"^(?:@\[.*?\] )?(?:private |protected )*(?:theorem|lemma)\s+%s(?![\w.'])" % re.escape(name), text, re.M)
        if not m:
            return False
        start = m.start()
    depth = 0
    i = start
    while i < len(text):
        c = text[i]
        if c in "([{⟨":
            depth += 1
        elif c in ")]}⟩":
            depth -= 1
        elif depth == 0 and text.startswith(":=", i):
            break
        i += 1
    m = re.compile(r"^(?:/-|@\[|theorem|lemma|def|example|instance|structure|inductive|abbrev|namespace|end|section|variable|private|"
                   r"protected|noncomputable|open|set_option|omit|include)\b|^/-|^@\[", re.M).search(text, i)
    end = m.start() if m else len(text)
    body = text[i:end]
    # the lines are kept, so that examples are still found by their line
    new = text[:i] + ":= by sorry" + "\n" * body.count("\n") + text[end:]
    if new == text:
        return False
    open(path, "w").write(new)
    return True


def build_through():
    """Builds, replacing failing proofs, until all modules are checked."""
    kept = {}
    total = []
    code = 0
    try:
        for k in range(40):
            r, failed = build()
            if k == 0:
                code = r
            if r == 0:
                break
            progress = False
            for path, name in failed:
                if (path, name) in total:
                    continue
                total.append((path, name))
                full = os.path.join(DST, path)
                kept.setdefault(full, open(full).read())
                progress = admit(full, name) or progress
            if not progress:
                total.append(("", "?"))
                break
    finally:
        for full, text in kept.items():
            open(full, "w").write(text)
    return code, total


def main():
    through = "--through" in sys.argv
    mutants = json.load(open(sys.argv[1]))
    deps = json.load(open("/tmp/mut/deps.json"))
    done = set()
    if os.path.exists(sys.argv[2]):
        done = {json.loads(l)["id"] for l in open(sys.argv[2])}
    for m in mutants:
        if m["id"] in done:
            continue
        path = os.path.join(DST, m["file"])
        text = open(path).read()
        n = text.count(m["old"])
        if n != 1:
            print("BAD", m["id"], n, flush=True)
            continue
        open(path, "w").write(text.replace(m["old"], m["new"]))
        try:
            code, failed = build_through() if through else build()
        finally:
            open(path, "w").write(text)
        names = [f[1] for f in failed]
        short = {n.split(".")[-1] for n in names}
        props = sorted({t for t, d in deps.items() if short & {n.split(".")[-1] for n in d}})
        rec = {"id": m["id"], "definition": m["definition"], "file": m["file"],
               "edit": m.get("edit") or "%s -> %s" % (m["old"].strip(), m["new"].strip()),
               "claim": m["claim"], "built": code == 0,
               "failed_directly": ["%s (%s)" % (f[1], f[0].replace("Verif/", "")) for f in failed],
               "property_theorems_failed": props}
        with open(sys.argv[2], "a") as f:
            f.write(json.dumps(rec, ensure_ascii=False) + "\n")
        print(m["id"], "SURVIVED" if code == 0 else "killed", names[:3], len(props), flush=True)


if sys.argv[1] == "sync":
    sync()
elif sys.argv[1] == "deps":
    write_deps()
else:
    main()
