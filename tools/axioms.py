"""Writes the axioms of each property theorem to DESIGN.md (between the two markers). Needs a finished `lake build`."""
import json
import os
import re
import subprocess
import tempfile

ROOT = os.path.dirname(os.path.dirname(os.path.abspath(__file__)))

PROGRAM = r'''
import Verif
import Lean
open Lean
def run : CoreM Unit := do
  let env ← getEnv
  let mut out : Array String := #[]
  for (n, ci) in env.constants.map₁.toList do
    if (`SP).isPrefixOf n && ci matches .thmInfo _ then
      let last := match n with | .str _ l => l | _ => ""
      if last.length > 3 && last.front == 'C' && (last.drop 1).front.isDigit && (last.drop 2).front.isDigit then
        let ax ← collectAxioms n
        out := out.push s!"{last} {ax.toList.map toString}"
  for l in out.qsort (· < ·) do IO.println l
#eval run
'''

with tempfile.TemporaryDirectory() as tmp:
    path = os.path.join(tmp, "axioms.lean")
    open(path, "w").write(PROGRAM)
    text = subprocess.run(["lake", "env", "lean", path], cwd=os.path.join(ROOT, "lean"), check=True, capture_output=True, text=True).stdout

names = {}
for line in text.splitlines():
    name, axioms = line.split(" ", 1)
    names.setdefault(axioms.strip("[]"), []).append(name)

table = []
for axioms in sorted(names, key=lambda a: (a.count(","), a)):
    table.append("* %s (%d theorems): %s" % ("none" if not axioms else "`%s`" % axioms.replace(", ", "`, `"), len(names[axioms]),
                                            ", ".join("`%s`" % n for n in names[axioms])))

design = os.path.join(ROOT, "DESIGN.md")
text = open(design).read()
text = re.sub(r"(<!-- axioms -->\n).*(<!-- end of axioms -->)", lambda m: m.group(1) + "\n".join(table) + "\n" + m.group(2), text, flags=re.S)
open(design, "w").write(text)
