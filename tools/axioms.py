"""Writes AXIOMS.txt: the axioms of every theorem named in MANIFEST.json (run after `lake build`)."""
import json, os, re, subprocess, tempfile
root = os.path.join(os.path.dirname(os.path.abspath(__file__)), "..")
names = []
for c in json.load(open(os.path.join(root, "MANIFEST.json")))["claims"]:
    for t in c["theorems"]:
        if t not in names: names.append(t)
with tempfile.NamedTemporaryFile("w", suffix=".lean", delete=False) as f:
    f.write("import Verif\n" + "\n".join("#print axioms " + n for n in names))
out = subprocess.run(["lake", "env", "lean", f.name], cwd=os.path.join(root, "lean"), capture_output=True, text=True).stdout
os.unlink(f.name)
out = re.sub(r"\s+", " ", out)
res = re.findall(r"'([^']+)' (?:depends on axioms: \[([^\]]*)\]|(does not depend on any axioms))", out)
assert len(res) == len(names), (len(res), len(names))
with open(os.path.join(root, "AXIOMS.txt"), "w") as g:
    for n, a, none in res: g.write("%s: %s\n" % (n, a or "none"))
print(len(res), sorted({a for _, a, _ in res}))
