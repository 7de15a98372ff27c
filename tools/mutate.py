#!/usr/bin/env python3
"""Seed a bug into a scratch copy of the model and list the theorems it breaks.

usage: mutate.py batch.jsonl      (lines: {"file","old","new","definition","edit","claim","expect"})
An optional "targets" (modules under Verif/Props) limits the rebuild to these modules.

The edited model is rebuilt in a scratch copy.  Each declaration whose proof fails is
replaced by `sorry` there and the build goes on; in the end a property theorem counts as
failed if it depends on `sorryAx`.  One line per mutant is appended to seeded/LOG.jsonl.
Nothing under /verif/lean is touched.
"""
import json, re, subprocess, sys, os, shutil, glob
SCR = os.environ.get('SCR', '/tmp/mut')
SRC = os.environ.get('SRC', '/verif/lean')
LOG = '/verif/seeded/LOG.jsonl'

def sh(cmd, cwd):
    p = subprocess.run(cmd, cwd=cwd, shell=True, capture_output=True, text=True)
    return p.stdout + p.stderr

def reset():
    os.makedirs(SCR, exist_ok=True)
    if not os.path.exists(SCR + '/.lake'):
        sh("cp -r %s/.lake %s/.lake" % (SRC, SCR), '/')
    for f in glob.glob(SCR + '/*'):
        shutil.rmtree(f) if os.path.isdir(f) else os.remove(f)
    sh("cp -rp %s/* %s/" % (SRC, SCR), '/')
    root = open(SCR + '/Verif.lean').read()
    open(SCR + '/Verif.lean', 'w').write(root.replace('import Verif.Axioms\n', ''))

DECL = re.compile(r'^(private |protected |noncomputable |@\[[^\]]*\] )*(theorem|lemma|example|def|structure|inductive|abbrev|instance|class|namespace|end|section|open|import|set_option|variable|/-|--)')

def sorry_at(path, line):
    """replace the proof of the theorem or example around `line` by sorry"""
    src = open(path).read().split('\n')
    i = line - 1
    while i >= 0 and not re.match(r'^(private |protected |@\[[^\]]*\] )*(theorem|lemma|example)\b', src[i]):
        if i < line - 1 and re.match(r'^(def|structure|inductive|abbrev|instance)\b', src[i]):
            return None
        i -= 1
    if i < 0: return None
    j = i + 1
    while j < len(src) and not DECL.match(src[j]): j += 1
    text = '\n'.join(src[i:j])
    depth = 0; k = 0; pos = -1
    while k < len(text) - 1:
        ch = text[k]
        if ch in '([{⟨': depth += 1
        elif ch in ')]}⟩': depth -= 1
        elif ch == ':' and text[k+1] == '=' and depth == 0:
            if not re.search(r'\blet\b', re.split(r'[\n;]', text[:k])[-1]):
                pos = k; break
        k += 1
    eq = re.search(r'\n\s*\|', text)
    if eq and (pos < 0 or eq.start() < pos): pos = eq.start() + 1
    wh = re.search(r'\bwhere\s*\n', text)
    if wh and (pos < 0 or wh.start() < pos): pos = wh.start()
    if pos < 0: return None
    if text[pos:].strip() == ':= sorry': return None
    name = re.match(r'^(?:private |protected |@\[[^\]]*\] )*(?:theorem|lemma|example)\s*(\S*)', text).group(1)
    nl = text.count('\n')
    new = text[:pos] + ':= sorry'
    pad = nl - new.count('\n')
    src[i:j] = (new + '\n' * pad).split('\n')
    open(path, 'w').write('\n'.join(src))
    return name or 'example'

def prop_theorems(targets):
    out = []
    for f in sorted(glob.glob(SCR + '/Verif/Props/*.lean')):
        if targets and 'Verif.Props.' + os.path.basename(f)[:-5] not in targets: continue
        s = open(f).read()
        ns = ''
        for m in re.finditer(r'^namespace (\S+)|^theorem (C\d+_\w*)', s, re.M):
            if m.group(1): ns = m.group(1)
            else: out.append(ns + '.' + m.group(2))
    return out

def run(m):
    reset()
    p = SCR + '/' + m['file']
    s = open(p).read()
    assert s.count(m['old']) == 1, ('occurrences', s.count(m['old']), m['old'])
    open(p, 'w').write(s.replace(m['old'], m['new']))
    broken = []
    note = ''
    targets = ['Verif.Props.' + t for t in m.get('targets', [])]
    for _ in range(60):
        out = sh('lake build %s 2>&1' % ' '.join(targets), SCR)
        errs = re.findall(r'^error: (Verif/\S+\.lean):(\d+):\d+:', out, re.M)
        if not errs:
            if 'error' in out and 'Build completed' not in out: note = out[-500:]
            break
        done = set()
        prog = False
        for f, l in errs:
            n = sorry_at(SCR + '/' + f, int(l))
            if n: broken.append(f.split('/')[-1][:-5] + ':' + n); prog = True
        if not prog:
            note = 'no progress: ' + out[-800:]; break
    ths = prop_theorems(targets)
    chk = SCR + '/chk.lean'
    open(chk, 'w').write('\n'.join('import ' + t for t in targets or ['Verif']) + '\n' + '\n'.join('#print axioms %s' % t for t in ths))
    out = sh('lake env lean chk.lean', SCR)
    os.remove(chk)
    failed = re.findall(r"'([^']+)' depends on axioms: \[[^\]]*sorryAx", out)
    failed = [f.replace('Phoenix.Props.', '') for f in failed]
    rec = {"definition": m['definition'], "edit": m.get('edit') or ('%s  ->  %s' % (m['old'], m['new'])), "claim": m['claim'],
           "failed": failed, "direct_proof_failures": sorted(set(broken)), "tightened": m.get('tightened', [])}
    exp = m.get('expect', [])
    missing = [e for e in exp if not any(f.split('.')[-1].startswith(e.split('.')[-1]) for f in failed)]
    rec_ok = not missing and (failed or not exp)
    print(json.dumps({"def": m['definition'], "nfailed": len(failed), "missing": missing, "note": note}), flush=True)
    if note: print(note, flush=True); return
    if missing: rec["survived"] = missing
    with open(LOG, 'a') as f: f.write(json.dumps(rec, ensure_ascii=False) + '\n')

for line in open(sys.argv[1]):
    if line.strip():
        m = json.loads(line)
        try: run(m)
        except AssertionError as e: print('BAD', m['definition'], e, flush=True)
