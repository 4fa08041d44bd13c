"""Write AXIOMS.md: the axioms every manifest theorem depends on, as Lean prints them.  Run after `lake build`."""
import json, re, subprocess, tempfile, os, collections
names = [t for c in json.load(open('/verif/MANIFEST.json'))['claims'] for t in c['theorems']]
with tempfile.NamedTemporaryFile('w', suffix='.lean', delete=False) as f:
    f.write('import Verif\n' + '\n'.join(f'#print axioms {n}' for n in names))
out = subprocess.run(['lake', 'env', 'lean', f.name], cwd='/verif/lean', capture_output=True, text=True).stdout
os.unlink(f.name)
out = re.sub(r'\s+', ' ', out)
groups = collections.OrderedDict()
for n in names:
    m = re.search(r"'%s' (does not depend on any axioms|depends on axioms: \[([^\]]*)\])" % re.escape(n), out)
    assert m, n
    groups.setdefault(m.group(2) or 'no axioms', []).append(n)
with open('/verif/AXIOMS.md', 'w') as f:
    f.write('# Axioms of the manifest theorems\n\nWritten by `tools/axioms.py` from the output of `#print axioms`.\n')
    for g, ns in sorted(groups.items(), key=lambda p: -len(p[1])):
        f.write(f'\n## {g} ({len(ns)})\n\n' + ', '.join(f'`{n}`' for n in ns) + '\n')
print({g: len(ns) for g, ns in groups.items()})
