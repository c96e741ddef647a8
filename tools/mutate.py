#!/usr/bin/env python3
"""Mutation test: apply edits to a scratch copy of the model, rebuild, and report which property theorems fail.

Usage: mutate.py FILE.json   (a list of {"def","file","old","new","edit","claim"})
A proof that no longer checks is replaced by `sorry` in the scratch copy, repeatedly, until everything builds; a property
theorem has failed if it then depends on `sorryAx`.  One JSON line per mutant is printed and appended to /tmp/mut/out.jsonl."""
import json, re, subprocess, sys, os, shutil
SRC = '/tmp/mut/base/lean'  # last commit, built once by prepare()
DST = '/tmp/mut/lean'
DECL = re.compile(r'^(theorem|lemma|def|example|instance|structure|inductive|abbrev|noncomputable|private|@\[|/--|/-!|namespace|end\b|section|variable|open|import|set_option|#|mutual|where)')

def sync():
    os.makedirs('/tmp/mut', exist_ok=True)
    shutil.rmtree(DST, ignore_errors=True)
    subprocess.run(['cp', '-a', SRC, DST], check=True)

def build():
    r = subprocess.run('lake build 2>&1', shell=True, cwd=DST, capture_output=True, text=True)
    return r.returncode, r.stdout

HEAD = re.compile(r'^(@\[[^\]]*\]\s*)?(private |protected |noncomputable )*(theorem|lemma|example|def|abbrev|instance|structure|inductive)\b\s*(\S*)')

def prepare():
    shutil.rmtree('/tmp/mut/base', ignore_errors=True)
    os.makedirs('/tmp/mut/base')
    subprocess.run('git -C /verif archive HEAD lean | tar -x -C /tmp/mut/base && cp -a /verif/lean/.lake /tmp/mut/base/lean/', shell=True, check=True)
    r = subprocess.run('lake build 2>&1 | tail -3', shell=True, cwd=SRC, capture_output=True, text=True)
    assert 'successfully' in r.stdout, r.stdout

def start_of(L, line):
    i = min(line, len(L)) - 1
    while i >= 0 and not HEAD.match(L[i]): i -= 1
    return i

def stub_all(path, lines):
    """Replace the proofs of the theorems around `lines` (1-based). Returns their names, or None."""
    L = open(path).read().split('\n')
    names = []
    for i in sorted({start_of(L, l) for l in lines}, reverse=True):
        if i < 0: return None
        m = HEAD.match(L[i])
        kind, name = m.group(3), m.group(4)
        j = i + 1
        while j < len(L) and not DECL.match(L[j]): j += 1
        if kind == 'example':
            h = i
            if h > 0 and L[h - 1].rstrip().endswith('-/'):   # its doc comment
                while h > 0 and not L[h - 1].startswith('/--'): h -= 1
                h -= 1
            del L[h:j]
            names.append('example')
            continue
        if kind not in ('theorem', 'lemma'): return None
        body = '\n'.join(L[i:j])
        depth = 0; k = 0; pos = -1
        while k < len(body):
            c = body[k]
            if c in '([{⟨': depth += 1
            elif c in ')]}⟩': depth -= 1
            elif body.startswith(':=', k) and depth == 0 and not re.search(r'\blet\b[^\n]*$', body[:k]): pos = k; break
            elif body.startswith('\n  | ', k) and depth == 0: pos = k; break
            k += 1
        if pos < 0: return None
        if body[pos:].strip() == ':= sorry': return None   # the statement itself does not elaborate
        L[i:j] = (body[:pos] + ' := sorry').split('\n') + ['']
        names.append(name)
    open(path, 'w').write('\n'.join(L))
    return names

def run(m):
    sync()
    edits = m['edits'] if 'edits' in m else [(m['file'], m['old'], m['new'])]
    for f, old, new in edits:
        p = os.path.join(DST, f)
        s = open(p).read()
        if s.count(old) != 1: return {'definition': m['def'], 'error': 'pattern occurs %d times in %s' % (s.count(old), f)}
        open(p, 'w').write(s.replace(old, new))
    stubbed = []
    for it in range(60):
        rc, out = build()
        errs = re.findall(r'^error: (Verif/\S+\.lean):(\d+):\d+', out, re.M)
        if rc == 0: break
        if not errs: return {'definition': m['def'], 'error': 'build: ' + out[-800:]}
        byfile = {}
        for f, l in errs: byfile.setdefault(f, set()).add(int(l))
        for f, ls in byfile.items():
            ns = stub_all(os.path.join(DST, f), ls)
            if ns is None: return {'definition': m['def'], 'error': 'cannot stub %s:%s: %s' % (f, ls, '\n'.join(l for l in out.split('\n') if 'error' in l)[:1500])}
            stubbed += [f[6:-5] + ':' + n for n in ns]
    else: return {'definition': m['def'], 'error': 'no fixpoint'}
    ax = dict(re.findall(r"'(Yenc\.Props\.\w+)' depends on axioms:\s*\[([^\]]*)\]", out))
    failed = sorted(n.split('.')[-1] for n, a in ax.items() if 'sorryAx' in a)
    exs = sorted(set(s for s in stubbed if s.endswith(':example')))
    return {'definition': m['def'], 'edit': m['edit'], 'claim': m['claim'], 'theorems_failed': failed,
            'lemmas_broken': sorted(set(s.split(':')[1] for s in stubbed if not s.endswith(':example'))), 'examples_broken': len(exs) and True or False, 'theorems_tightened': []}

if __name__ == '__main__':
    prepare()
    for m in json.load(open(sys.argv[1])):
        r = run(m)
        r['_expect'] = m.get('expect', [])
        r['_missing'] = [e for e in r['_expect'] if not any(t.startswith(e) for t in r.get('theorems_failed', []))]
        print(json.dumps(r, ensure_ascii=False), flush=True)
        open('/tmp/mut/out.jsonl', 'a').write(json.dumps(r, ensure_ascii=False) + '\n')
