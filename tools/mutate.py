#!/usr/bin/env python3
"""Mutation testing of the theorems.

usage: mutate.py MUTANTS.jsonl [LOG.jsonl]

Each line of MUTANTS.jsonl: {"definition", "file", "old", "new", "nth" (optional), "claim", "breaks": ["C01", ...]}.
The edit is applied to a scratch copy (/tmp/mut/lean) of the project, the project is built, and the declarations
whose proofs fail are mapped to the property theorems that rest on them with the dependencies
dumped by the script DEPS below (`mutate.py deps`, after `mutate.py sync`). A failed proof hides the modules that
import it, so in the scratch copy the failed proofs are then cut out and the build is repeated until all the claims
expected to break have been seen to break or the build goes through.
A line is appended to the log for each mutant.
"""
import json, os, re, subprocess, sys, shutil
S = '/tmp/mut/lean'
SRC = '/verif/lean'

# Prints, for every property theorem, the declarations of the project its proof and statement rest on.
DEPS = r'''import Verif
/-! Prints, for every property theorem, the declarations of this project its proof and statement rest on.
 -/
open Lean

partial def visit (env : Environment) (n : Name) (seen : NameSet) : NameSet :=
  if seen.contains n then seen
  else match env.find? n, env.getModuleIdxFor? n with
    | some c, some i =>
      if (`Verif).isPrefixOf env.header.moduleNames[i]! then
        let seen := seen.insert n
        c.getUsedConstantsAsSet.foldl (fun s k => visit env k s) seen
      else seen
    | _, _ => seen

def isProp (n : Name) : Bool :=
  match n with
  | .str (.str .anonymous "BI") s => s.startsWith "C" && ((s.drop 1).take 2).all Char.isDigit && (s.drop 3).startsWith "_"
  | _ => false

run_cmd do
  let env ← getEnv
  let mut out := #[]
  for (n, _) in env.constants.map₁.toList do
    if isProp n then
      let d := visit env n {}
      out := out.push (s!"{n} " ++ " ".intercalate (d.toList.map fun k => toString ((privateToUserName? k).getD k)))
  IO.FS.writeFile "/tmp/mut/deps.txt" ("\n".intercalate out.toList)
'''

def dump():
    open('/tmp/mut/Deps.lean', 'w').write(DEPS)
    subprocess.run(['lake', 'build'], cwd=S, check=True)
    subprocess.run(['lake', 'env', 'lean', '/tmp/mut/Deps.lean'], cwd=S, check=True)

def sync():
    os.makedirs('/tmp/mut', exist_ok=True)
    subprocess.run(['rsync', '-a', '--delete', '--exclude', '.lake', SRC + '/', S + '/'], check=False) \
        if shutil.which('rsync') else subprocess.run(
            f'mkdir -p {S}; rm -rf {S}/Verif {S}/Verif.lean; cp -p {SRC}/lakefile.toml {SRC}/lake-manifest.json {SRC}/Verif.lean {S}/; cp -rp {SRC}/Verif {S}/', shell=True, check=True)

DECL = re.compile(r'^(?:@\[[^\]]*\]\s*)?(?:private |protected |noncomputable |scoped )*(theorem|lemma|def|instance|example|structure|inductive|abbrev|class)\b\s*([^\s:({\[]*)')

def decl_at(path, line):
    ls = open(path).read().split('\n')
    for i in range(min(line, len(ls)) - 1, -1, -1):
        m = DECL.match(ls[i])
        if m:
            return m.group(1), m.group(2)
    return '?', '?'

def qualified(path, line, name):
    """The name with the namespaces open at the given line."""
    if name.startswith('_root_.'):
        return name[7:]
    st = []
    for l in open(path).read().split('\n')[:line]:
        m = re.match(r'^(namespace|section|noncomputable section|end)\b\s*(\S*)', l)
        if not m:
            continue
        if m.group(1) == 'end':
            if st: st.pop()
        else:
            st.append(m.group(2) if m.group(1) == 'namespace' else '')
    return '.'.join([x for x in st if x] + [name])

def cut(text, line):
    """Replace the proof of the theorem (or the laws of a platform) around the given line by `sorry`, in the scratch copy."""
    ls = text.split('\n')
    i = min(line, len(ls)) - 1
    while i >= 0 and not DECL.match(ls[i]):
        i -= 1
    if i < 0:
        return None
    if DECL.match(ls[i]).group(1) not in ('theorem', 'lemma', 'example') and not re.match(r'^(noncomputable )?def \w+_laws\b', ls[i]):
        return None
    j = i + 1
    while j < len(ls) and not re.match(r'^(/--|/-!|theorem|lemma|def|instance|example|structure|inductive|abbrev|class|end\b|section|namespace|open|variable|set_option|@\[|noncomputable|private|omit|include)', ls[j]):
        j += 1
    body = '\n'.join(ls[i:j])
    d = 0
    for k, ch in enumerate(body):
        if ch in '([{⟨':
            d += 1
        elif ch in ')]}⟩':
            d -= 1
        elif d == 0 and body.startswith(':=', k):
            new = body[:k] + ':= sorry\n'
            return '\n'.join(ls[:i] + [new] + ls[j:])
    return None

def main():
    muts = [json.loads(l) for l in open(sys.argv[1]) if l.strip()]
    log = sys.argv[2] if len(sys.argv) > 2 else '/verif/seeded/LOG.jsonl'
    deps = {}
    for l in open('/tmp/mut/deps.txt'):
        w = l.split()
        deps[w[0]] = set(w[1:])
    for m in muts:
        p = f"{S}/Verif/{m['file']}"
        orig = open(p).read()
        n = orig.count(m['old'])
        k = m.get('nth')
        if n == 0 or (n > 1 and k is None):
            print('BAD MUTANT', n, m['definition'], m['old']); continue
        if k is None:
            new = orig.replace(m['old'], m['new'])
        else:
            i = -1
            for _ in range(k):
                i = orig.index(m['old'], i + 1)
            new = orig[:i] + m['new'] + orig[i + len(m['old']):]
        saved = {p: orig}
        open(p, 'w').write(new)
        failed = set(); full = set(); props = set(); modelbad = False
        missed = m['breaks']
        try:
            for rnd in range(12):
                r = subprocess.run(['nice', 'lake', 'build'], cwd=S, capture_output=True, text=True, timeout=5000)
                out = r.stdout + r.stderr
                errs = {}
                for f, line in re.findall(r'^error: (Verif/\S+\.lean):(\d+):', out, re.M):
                    kind, name = decl_at(f'{S}/{f}', int(line))
                    if f.startswith('Verif/Model') or (f == 'Verif/Core/Effect.lean' and kind in ('def', 'instance')):
                        modelbad = True
                    if name:
                        full.add(qualified(f'{S}/{f}', int(line), name))
                    failed.add(name if name else f'{kind} in {f}:{line}')
                    errs.setdefault(f, {})[(kind, name)] = int(line)
                for c, d in deps.items():
                    if full & d:
                        props.add(c[3:])
                missed = [b for b in m['breaks'] if not any(q.startswith(b) for q in props)]
                if r.returncode == 0 or modelbad or not missed:
                    break
                stuck = True
                for f, ds in errs.items():
                    q = f'{S}/{f}'
                    t = open(q).read()
                    saved.setdefault(q, t)
                    for line in sorted(ds.values(), reverse=True):
                        u = cut(t, line)
                        if u is not None:
                            t = u; stuck = False
                    open(q, 'w').write(t)
                if stuck:
                    break
        finally:
            for q, t in saved.items():
                open(q, 'w').write(t)
        props = sorted(props)
        rec = {'definition': m['definition'], 'file': 'lean/Verif/' + m['file'], 'edit': {'old': m['old'], 'new': m['new']},
               'claim': m['claim'], 'breaks': m['breaks'], 'declarations_failed': sorted(failed)[:40],
               'theorems_failed': [q for q in props if any(q.startswith(b) for b in m['breaks'])],
               'other_theorems_failed': len([q for q in props if not any(q.startswith(b) for b in m['breaks'])]),
               'missed': missed, 'theorems_tightened': []}
        if modelbad:
            rec['note'] = 'mutant does not compile'
        print(('MODELBAD ' if modelbad else '') + ('SURVIVED ' if missed else 'killed ') + m['definition'], m['old'][:50].replace('\n', ' '), '->', m['new'][:50].replace('\n', ' '), 'failed', sorted(failed)[:6], 'missed', missed, flush=True)
        if not modelbad:
            with open(log, 'a') as o:
                o.write(json.dumps(rec) + '\n')

if __name__ == '__main__':
    if len(sys.argv) == 2 and sys.argv[1] == 'sync':
        sync()
    elif len(sys.argv) == 2 and sys.argv[1] == 'deps':
        dump()
    else:
        main()
