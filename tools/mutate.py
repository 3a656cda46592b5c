"""Applies each seeded bug of seeded/mutants.jsonl to a scratch copy of the Lean project, rebuilds, and appends the
outcome to seeded/LOG.jsonl.  Usage: python3 tools/mutate.py [first-index]"""
import json, os, re, subprocess, sys, shutil
ROOT = '/verif'
MUT = '/tmp/mut'
def sync():
    subprocess.run(['rsync', '-a', '--delete', ROOT + '/lean/', MUT + '/'], check=True) if shutil.which('rsync') else \
        (shutil.rmtree(MUT, ignore_errors=True), shutil.copytree(ROOT + '/lean', MUT, symlinks=True))
def decl(path, line):
    L = open(path).read().split('\n')
    for i in range(min(line, len(L)) - 1, -1, -1):
        m = re.match(r'(?:private |protected )?(theorem|lemma|def|example|instance|structure|inductive)\b\s*([^\s:({\[]*)', L[i])
        if m: return m.group(2) or m.group(1)
    return '?'
def build():
    # stops 60 seconds after the first failed theorem: those that fail later are not recorded
    import threading, signal
    p = subprocess.Popen(['lake', 'build'], cwd=MUT, stdout=subprocess.PIPE, stderr=subprocess.STDOUT, text=True, start_new_session=True)
    out = ''; t = None
    for l in p.stdout:
        out += l
        if l.startswith('error: Verif/') and not l.startswith('error: Verif/RepoTest') and t is None:
            t = threading.Timer(60, lambda: os.killpg(p.pid, signal.SIGKILL)); t.start()
    p.wait()
    if t: t.cancel()
    return out
def main():
    muts = [json.loads(l) for l in open(ROOT + '/seeded/mutants.jsonl') if l.strip()]
    done = set(); open_ = set()      # --again: the survivors without a note or a tightened theorem are tried again
    if os.path.exists(ROOT + '/seeded/LOG.jsonl'):
        for l in open(ROOT + '/seeded/LOG.jsonl'):
            if l.strip():
                d = json.loads(l); done.add((d['file'], d['edit'], d['breaks']))
                if d.get('survived') and not d.get('note') and not d.get('tightened'): open_.add((d['file'], d['edit'], d['breaks']))
    if '--nosync' not in sys.argv: sync()
    for m in muts:
        edit = m['old'].strip() + '  =>  ' + m['new'].strip()
        again = (m['file'], edit, m['claim']) in open_
        if (m['file'], edit, m['claim']) in done and not ('--again' in sys.argv and again): continue
        p = f"{MUT}/Verif/{m['file']}"
        src = open(p).read()
        if src.count(m['old']) < 1:
            print('NOT FOUND', m); continue
        n = m.get('nth', 0)
        parts = src.split(m['old'])
        new = m['old'].join(parts[:n+1]) + m['new'] + m['old'].join(parts[n+1:])
        open(p, 'w').write(new)
        # the properties of the module first: if they fail, the rest is not built
        first = 'Verif.' + m['file'][:-5] + 'Props'
        out = ''
        if os.path.exists(f"{MUT}/{first.replace('.', '/')}.lean"):
            r = subprocess.run(['lake', 'build', first], cwd=MUT, capture_output=True, text=True)
            out = r.stdout + r.stderr
        if 'error: Verif/' not in out:
            out = build()
        failed = []
        for f, ln in re.findall(r'error: (Verif/\w+\.lean):(\d+):', out):
            if f.startswith('Verif/RepoTest'): continue      # tests of the model, not theorems
            d = f[6:-5] + '.' + decl(f'{MUT}/{f}', int(ln))
            if d not in failed: failed.append(d)
        open(p, 'w').write(src)
        if again:
            print('again', m['def'], '|', edit[:90], '|', failed[:4], flush=True)
            L = [json.loads(l) for l in open(ROOT + '/seeded/LOG.jsonl') if l.strip()]
            for d in L:
                if (d['file'], d['edit'], d['breaks']) == (m['file'], edit, m['claim']): d['tightened'] = failed
            with open(ROOT + '/seeded/LOG.jsonl', 'w') as g: g.writelines(json.dumps(d, ensure_ascii=False) + '\n' for d in L)
            continue
        rec = dict(file=m['file'], definition=m['def'], edit=edit, breaks=m['claim'], failed=failed, tightened=[])
        if not failed: rec['survived'] = True
        print('SURVIVED' if not failed else 'killed', m['def'], '|', edit[:90], '|', failed[:4], flush=True)
        with open(ROOT + '/seeded/LOG.jsonl', 'a') as g: g.write(json.dumps(rec, ensure_ascii=False) + '\n')
main()
