#!/usr/bin/env python3
"""Write AXIOMS.md: the axioms every theorem of MANIFEST.json depends on, as printed by Lean."""
import json
import os
import re
import subprocess
import tempfile

ROOT = os.path.dirname(os.path.dirname(os.path.abspath(__file__)))


def main():
    claims = json.load(open(ROOT + '/MANIFEST.json'))['claims']
    names = [t for c in claims for t in c['theorems']]
    with tempfile.NamedTemporaryFile('w', suffix='.lean', delete=False) as f:
        f.write('import Verif\n' + ''.join('#print axioms %s\n' % n for n in names))
    out = subprocess.run(['lake', 'env', 'lean', f.name], cwd=ROOT + '/lean', capture_output=True, text=True).stdout
    os.unlink(f.name)
    out = re.sub(r'\s+', ' ', out)
    groups = {}
    for n in names:
        m = re.search(r"'%s' (does not depend on any axioms|depends on axioms: \[([^\]]*)\])" % re.escape(n), out)
        key = (m.group(2) or '(none)') if m else 'UNKNOWN'
        groups.setdefault(key, []).append(n.replace('Ethabi.Props.', ''))
    with open(ROOT + '/AXIOMS.md', 'w') as f:
        f.write('# Axioms per theorem\n\nOutput of `#print axioms` for every theorem of MANIFEST.json '
                '(tools/axioms.py).  Names are in the namespace `Ethabi.Props`.\n')
        for k in sorted(groups, key=lambda k: -len(groups[k])):
            f.write('\n## %s\n\n%s\n' % (k, ', '.join(sorted(groups[k]))))


main()
