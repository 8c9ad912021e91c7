"""Print the axioms of the theorems of the manifest, grouped, and put the table into DESIGN.md."""
import collections
import json
import os
import re
import subprocess
import tempfile

ROOT = os.path.dirname(os.path.dirname(os.path.abspath(__file__)))
BEGIN, END = '<!-- axioms begin -->', '<!-- axioms end -->'


def main():
    claims = json.load(open(f'{ROOT}/MANIFEST.json'))['claims']
    names = [t for c in claims for t in c['theorems']]
    names = list(dict.fromkeys(names))
    with tempfile.NamedTemporaryFile('w', suffix='.lean', delete=False) as f:
        f.write('import Verif\n' + ''.join(f'#print axioms {n}\n' for n in names))
    out = subprocess.run(['lake', 'env', 'lean', f.name], cwd=f'{ROOT}/lean', capture_output=True, text=True).stdout
    os.unlink(f.name)
    found = {}
    for m in re.finditer(r"'([^']+)' (?:depends on axioms: \[([^\]]*)\]|does not depend on any axioms)", out):
        found[m[1]] = tuple(sorted(a.strip() for a in (m[2] or '').split(',') if a.strip()))
    missing = [n for n in names if n not in found]
    assert not missing, missing
    groups = collections.defaultdict(list)
    for n in names:
        groups[found[n]].append(n)
    lines = []
    for axioms in sorted(groups, key=lambda a: (len(a), a)):
        title = ', '.join(f'`{a}`' for a in axioms) or 'no axioms'
        lines.append(f'* {title} ({len(groups[axioms])} theorems): ' +
                     ', '.join(n.split('.')[-1] for n in groups[axioms]) + '.')
    text = open(f'{ROOT}/DESIGN.md').read()
    a, b = text.index(BEGIN) + len(BEGIN), text.index(END)
    open(f'{ROOT}/DESIGN.md', 'w').write(text[:a] + '\n' + '\n'.join(lines) + '\n' + text[b:])
    print({k: len(v) for k, v in groups.items()})


main()
