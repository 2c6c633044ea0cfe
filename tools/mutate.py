#!/usr/bin/env python3
"""Apply realistic bugs to a scratch copy of the model and record which theorems fail.
usage: mutate.py mutations.py   (a python file defining MUTS = [dict(file, d, old, new, claim)])
Appends to ../seeded/LOG.jsonl one line per mutation.  Scratch copy: /tmp/mut/lean."""
import sys, json, re, subprocess, os, shutil
root = os.path.dirname(os.path.dirname(os.path.abspath(__file__)))
scratch = '/tmp/mut/lean'
ns = {}
exec(open(sys.argv[1]).read(), ns)
subprocess.run(['mkdir', '-p', '/tmp/mut'])
subprocess.run('rm -rf %s; cp -r %s/lean %s' % (scratch, root, scratch), shell=True, check=True)

def owner(path, line):
    src = open(path).read().split('\n')
    for i in range(min(line, len(src)) - 1, -1, -1):
        m = re.match(r'\s*(?:@\[[^\]]*\]\s*)?(?:private )?(theorem|def|example|instance|abbrev)\b\s*(\S*)', src[i])
        if m:
            return m.group(2) if m.group(1) != 'example' else 'example@%s:%d' % (os.path.basename(path), i + 1)
    return '?'

def build(targets):
    p = subprocess.run(['lake', 'build', '-q', '--no-ansi'] + targets, cwd=scratch, capture_output=True, text=True)
    out = p.stdout + p.stderr
    failed = []
    for m in re.finditer(r'error: (\S+?\.lean):(\d+):\d+', out):
        o = owner(os.path.join(scratch, m.group(1)), int(m.group(2)))
        if o not in failed:
            failed.append(o)
    return p.returncode, failed, out

for mu in ns['MUTS']:
    edits = mu.get('edits') or [(mu['file'], mu['old'], mu['new'])]
    saved = {}
    bad = False
    for f, a, b in edits:
        path = os.path.join(scratch, 'Verif', f)
        src = open(path).read()
        saved.setdefault(path, src)
        if src.count(a) != 1:
            print('!! %s: pattern %r occurs %d times' % (mu['d'], a, src.count(a))); bad = True
        open(path, 'w').write(src.replace(a, b))
    if not bad:
        rc, failed, out = build(['Verif'])
        # a broken lemma hides the claims proved from it: also build each claims file on its own is
        # impossible then, so the lemmas listed are the ones the claims rest on
        print('SURVIVED' if rc == 0 else 'killed', mu['d'], '|', mu['claim'], '|', failed[:12], flush=True)
        if rc != 0 and not failed:
            print(out[-2000:])
        rec = dict(definition=mu['d'], file=' '.join(sorted({'lean/Verif/' + f for f, _, _ in edits})),
                   edit='; '.join('%s  ==>  %s' % (a.strip(), b.strip()) for _, a, b in edits),
                   claim=mu['claim'], theorems_failed=failed[:20], theorems_tightened=mu.get('tightened', []))
        if rc == 0:
            rec['note'] = mu.get('note', 'survived')
        open('/tmp/mut/log.jsonl', 'a').write(json.dumps(rec) + '\n')
    for path, src in saved.items():
        open(path, 'w').write(src)
