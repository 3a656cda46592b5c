"""Translates the unit tests of /repo/src/task (the `test!`-like macros: SVG text in, SVG text out) into Lean examples that run
the model's functions on the same documents: lean/Verif/RepoTests*.lean.  These are tests of the model's fidelity, not proofs.
Usage: python3 tools/repotests.py  (rewrites the generated modules; prints what was left out)"""
import re, glob, os, math
from fractions import Fraction
from xml.parsers import expat
REPO, OUT = '/repo/src/task/', '/verif/lean/Verif/'
# ---------------------------------------------------------------- the Rust side
def rust_str(s, i):
    i += 1; out = []
    while s[i] != '"':
        c = s[i]
        if c == '\\':
            n = s[i+1]
            if n == '\n':
                i += 2
                while s[i] in ' \t\n': i += 1
                continue
            out.append({'n': '\n', 't': '\t', '"': '"', '\\': '\\', "'": "'"}[n]); i += 2; continue
        out.append(c); i += 1
    return ''.join(out), i + 1
def tests(path):
    s = open(path).read(); k = s.find('#[cfg(test)]'); res = []; mod = ''
    if k < 0: return []
    for m in re.finditer(r'\bmod (\w+) \{|^\s*(test\w*)!\(\s*(\w+)\s*,', s[k:], re.M):
        if m.group(1): mod = m.group(1); continue
        i = k + m.end(); args = []
        while True:
            while s[i] in ' \t\n,': i += 1
            if s[i] == '"': a, i = rust_str(s, i); args.append(a)
            elif s[i] == ')': break
            elif s[i:i+2] == '//': i = s.index('\n', i)
            else:
                j, d = i, 0
                while not (s[j] in ',)' and d == 0):
                    if s[j] == '"': _, j = rust_str(s, j); continue
                    d += (s[j] in '([') - (s[j] in ')]'); j += 1
                args.append(('raw', s[i:j].strip())); i = j
        res.append((mod, m.group(2), m.group(3), args, s.count('\n', 0, k + m.start(2)) + 1))
    return res
# ---------------------------------------------------------------- SVG text to `Forest`
dom = open(OUT + 'Dom.lean').read()
def ctors(name):
    b = dom.split('inductive ' + name)[1].split('deriving')[0]
    return set(re.findall(r'\| (\w+)', re.sub(r'--.*', '', b)))
EID, AID = ctors('EId'), ctors('AId')
def camel(s):
    p = re.split(r'[-:]', s); c = p[0] + ''.join(x[:1].upper() + x[1:] for x in p[1:])
    return {'in': 'in_', 'type': 'type_'}.get(c, c)
def q(x):
    f = x if isinstance(x, Fraction) else Fraction(x)
    if f.denominator == 1: return str(f.numerator) if f >= 0 else f'({f.numerator})'
    return f'({f.numerator} / {f.denominator})'
NUM = r'[-+]?(?:\d+\.?\d*|\.\d+)(?:[eE][-+]?\d+)?'
UNITS = {'': 'none', 'em': 'em', 'ex': 'ex', 'px': 'px', 'in': 'in_', 'cm': 'cm', 'mm': 'mm', 'pt': 'pt', 'pc': 'pc', '%': 'percent'}
KW = ['inherit', 'none', 'currentColor', 'hidden', 'visible', 'objectBoundingBox', 'userSpaceOnUse', 'pad']
COLORS = {'red': (255, 0, 0), 'black': (0, 0, 0)}
def lens(v):
    m = re.fullmatch(f'({NUM})([a-z%]*)', v.strip())
    return f'⟨{q(m.group(1))}, .{UNITS[m.group(2)]}⟩' if m else None
def kw(v): return f'.kw .{v}' if v in KW else f'.kw (.other "{v}")'
def mul(s, t):
    return [s[0]*t[0]+s[2]*t[1], s[1]*t[0]+s[3]*t[1], s[0]*t[2]+s[2]*t[3], s[1]*t[2]+s[3]*t[3],
            s[0]*t[4]+s[2]*t[5]+s[4], s[1]*t[4]+s[3]*t[5]+s[5]]
def transform(v):
    t = [Fraction(x) for x in (1, 0, 0, 1, 0, 0)]
    for n, a in re.findall(r'(\w+)\s*\(([^)]*)\)', v):
        a = [Fraction(x) for x in re.findall(NUM, a)]
        if n == 'matrix': u = a
        elif n == 'translate': u = [1, 0, 0, 1, a[0], a[1] if len(a) > 1 else 0]
        elif n == 'scale': u = [a[0], 0, 0, a[1] if len(a) > 1 else a[0], 0, 0]
        elif n == 'rotate':
            c, s = (Fraction(f(math.radians(float(a[0])))) for f in (math.cos, math.sin)); u = [c, s, -s, c, 0, 0]
        elif n == 'skewX': u = [1, 0, Fraction(math.tan(math.radians(float(a[0])))), 1, 0, 0]
        else: raise ValueError(v)
        t = mul(t, [Fraction(x) for x in u])
    return t
ARGS = dict(M=2, L=2, H=1, V=1, C=6, S=4, Q=4, T=2, A=7, Z=0)
NAMES = dict(M='moveTo', L='lineTo', H='hline', V='vline', C='curveTo', S='smooth', Q='quad', T='smoothQuad', A='arc', Z='close')
def path(v):
    out, cmd, toks, i = [], None, re.findall(f'[A-Za-z]|{NUM}', v), 0
    while i < len(toks):
        if toks[i].isalpha(): cmd = toks[i]; i += 1
        n = ARGS[cmd.upper()]; a = toks[i:i+n]
        if len(a) < n or any(x.isalpha() for x in a): break     # svgparser: an error ends the path
        i += n; a = [q(x) for x in a]
        if cmd.upper() == 'A': a[3] = 'true' if a[3] != '0' else 'false'; a[4] = 'true' if a[4] != '0' else 'false'
        out.append(f'⟨{"true" if cmd.isupper() else "false"}, .{NAMES[cmd.upper()]} {" ".join(a)}⟩'.replace(' ⟩', '⟩'))
        if cmd in 'mM': cmd = 'l' if cmd == 'm' else 'L'
    return '[' + ', '.join(out) + ']'
LEN = set('x y x1 x2 y1 y2 width height r rx ry cx cy fx fy dx dy stroke-width stroke-dashoffset font-size'.split())
NUMB = set('opacity fill-opacity stroke-opacity stop-opacity stroke-miterlimit'.split())
STR = set('font-family font onload requiredFeatures systemLanguage xmlns:xlink xmlns version class type values unicode-range result'.split())
def value(name, v, ids):
    """svgparser's parse_svg_attribute and svgdom's resolving of references, as far as the tests need it; None: left out"""
    m = re.fullmatch(r'url\(#(.*?)\)', v)
    if m: return f'.funcLink {ids[m.group(1)]}'
    if name == 'xlink:href':
        return f'.link {ids[v[1:]]}' if v.startswith('#') and v[1:] in ids else f'.str "{v}"'
    if v in ('inherit', 'none', 'currentColor'): return kw(v)
    if name in ('fill', 'stroke', 'color', 'stop-color', 'flood-color'):
        c = COLORS[v] if v in COLORS else tuple(int(v[i:i+2], 16) for i in (1, 3, 5))
        return '.color %d %d %d' % c
    if name in STR: return f'.str "{v}"'
    if name in LEN: return f'.length {lens(v)}'
    if name == 'offset': return f'.length {lens(v)}'
    if name in NUMB: return f'.number {q(v)}'
    if name == 'stroke-dasharray': return '.lengthList [' + ', '.join(lens(x) for x in v.split()) + ']'
    if name in ('points', 'stdDeviation', 'viewBox'):
        return '.numberList [' + ', '.join(q(x) for x in re.findall(NUM, v)) + ']'
    if name in ('transform', 'gradientTransform', 'patternTransform'):
        t = transform(v)
        return None if t == [1, 0, 0, 1, 0, 0] else '.transform ⟨' + ', '.join(q(x) for x in t) + '⟩'
    if name == 'd': return '.path ' + path(v)
    if name in ('xml:space',): return f'.str "{v}"'
    return kw(v)
def parse(text):
    root = dict(tag=None, attrs=[], kids=[]); stack = [root]; p = expat.ParserCreate(); p.ordered_attributes = True
    def start(t, a):
        n = dict(tag=t, attrs=list(zip(a[::2], a[1::2])), kids=[], pre=any(x.get('pre') for x in stack) or ('xml:space', 'preserve') in zip(a[::2], a[1::2]))
        stack[-1]['kids'].append(n); stack.append(n)
    def text_(d):
        k = stack[-1]['kids']
        if k and k[-1]['tag'] == '#text': k[-1]['text'] += d
        else: k.append(dict(tag='#text', text=d, attrs=[], kids=[], pre=stack[-1].get('pre')))
    p.StartElementHandler = start; p.EndElementHandler = lambda t: stack.pop(); p.CharacterDataHandler = text_
    p.CommentHandler = lambda d: stack[-1]['kids'].append(dict(tag='#comment', text=d, attrs=[], kids=[]))
    p.Parse(text.strip(), True)
    def clean(n):
        ks = []
        for k in n['kids']:
            if k['tag'] == '#text':
                if not k.get('pre'): k['text'] = re.sub(r'\s+', ' ', k['text']).strip()
                if not k['text'].strip(): continue
            clean(k); ks.append(k)
        n['kids'] = ks
    clean(root); return root['kids']
def lean(text):
    """the document as a Lean term"""
    top = parse(text); ids = {}; cnt = [0]
    def number(ns):
        for n in ns:
            n['key'] = cnt[0]; cnt[0] += 1
            for a, v in n['attrs']:
                if a == 'id': ids[v] = n['key']
            number(n['kids'])
    number(top)
    def s(x): return '"' + x.replace('\\', '\\\\').replace('"', '\\"').replace('\n', '\\n') + '"'
    def node(n):
        if n['tag'] == '#text': kind = '.text ' + s(n['text'])
        elif n['tag'] == '#comment': kind = '.comment ' + s(n['text'])
        else: kind = '.elem .' + camel(n['tag']) if camel(n['tag']) in EID else '.other ' + s(n['tag'])
        i = next((v for a, v in n['attrs'] if a == 'id'), ''); out = []
        for a, v in n['attrs']:
            if a == 'id': continue
            w = value(a, v, ids)
            if w is None: continue
            nm = '.id .' + camel(a) if camel(a) in AID else '.name ' + s(a)
            out.append(f'⟨{nm}, {w}, true⟩')
        return f'⟨{n["key"]}, {kind}, {s(i)}, [' + ', '.join(out) + ']⟩'
    def forest(ns):
        if not ns: return '.nil'
        return f'(.cons {node(ns[0])} {forest(ns[0]["kids"])} {forest(ns[1:])})'
    return forest(top)
# ---------------------------------------------------------------- what each macro runs
RES = ['may Gradients.resolveLinear', 'may Gradients.resolveRadial', 'Stops.resolveStops']
TSO = '⟨true, true, true⟩'
RUN = {
 ('apply_transforms/gradients.rs', 'tests'): RES + ['may ApplyTs.applyToGradients'],
 ('apply_transforms/preproc.rs', 'tests'): [f'prepare {TSO}'],
 ('apply_transforms/shapes.rs', 'tests'): RES + ['may ApplyTs.applyToShapes'],
 ('conv_shapes.rs', 'tests'): ['may ConvShapes.convertShapes'],
 ('final_fixes.rs', 'tests'): ['may Simple.removeEmptyDefs'],
 ('fix_attrs.rs', 'test_rect'): ['may Stops.fixInvalidAttributes'],
 ('fix_attrs.rs', 'test_poly'): ['may Stops.fixInvalidAttributes'],
 ('fix_attrs.rs', 'test_stop'): ['Stops.resolveStops', 'may Stops.fixInvalidAttributes'],
 ('group_by_style.rs', 'tests'): ['may GroupStyle.groupByStyle'],
 ('group_defs.rs', 'tests'): ['may GroupDefs.groupDefs'],
 ('merge_gradients.rs', 'tests'): RES + ['may Merge.mergeGradients'],
 ('paths/mod.rs', 'tests'): ['may (ApplyTs.processPaths true ⟨true, true⟩)'],
 ('regroup_gradient_stops.rs', 'tests'): RES + ['may Regroup.regroup'],
 ('resolve_gradients.rs', 'lg_tests'): RES[:1],
 ('resolve_gradients.rs', 'rg_tests'): RES[1:2],
 ('resolve_gradients.rs', 'stop_tests'): RES[2:],
 ('resolve_inherit.rs', 'tests'): ['Inherit.resolveInherit'],
 ('resolve_use.rs', 'tests'): ['may ResolveUse.resolveUse'],
 ('rm_default_attrs.rs', 'tests'): ['may (DefaultAttrs.removeDefaults initial)'],
 ('rm_dupl_defs/fe_gaussian_blur.rs', 'tests'): ['may Dupl.rmBlurs'],
 ('rm_dupl_defs/linear_gradient.rs', 'tests'): RES[:1] + ['may Dupl.rmLinear'],
 ('rm_dupl_defs/radial_gradient.rs', 'tests'): RES[1:2] + ['may Dupl.rmRadial'],
 ('rm_gradient_attrs.rs', 'tests'): RES + ['may GradUnits.removeGradientAttributes'],
 ('rm_invalid_stops.rs', 'tests'): RES + ['may Stops.fixInvalidAttributes', 'sure Stops.removeInvalidStops'],
 ('rm_invisible_elems.rs', 'tests'): ['may GroupDefs.groupDefs', 'may Invisible.removeInvisible', 'may Simple.removeEmptyDefs'],
 ('rm_needless_attrs.rs', 'tests'): ['sure Needless.removeNeedless'],
 ('rm_text_attrs.rs', 'tests'): ['may TextAttrs.removeText'],
 ('rm_unref_ids.rs', 'tests'): ['sure Simple.removeUnreferencedIds'],
 ('rm_unused_coords.rs', 'tests'): ['sure Simple.removeUnusedCoords'],
 ('rm_unused_defs.rs', 'tests'): ['may UnusedDefs.removeUnusedDefs'],
 ('ungroup_defs.rs', 'tests'): ['sure Simple.ungroupDefs'],
 ('ungroup_groups.rs', 'tests'): ['may GroupDefs.groupDefs', f'may fun f => (Ungroup.ungroupGroups {TSO} f).bind id',
                                  'may UnusedDefs.removeUnusedDefs', 'may Simple.removeEmptyDefs'],
 ('utils.rs', 'tests'): ['may recalc'],
}
ERR = {'Error: scripting is not supported': '.scripting', 'Error: animation is not supported': '.animation',
       'Error: conditional processing attributes is not supported': '.conditional'}
def one(f, mod, mac, name, args, line):
    """the proposition of the example, or None"""
    if f == 'paths/apply_transform.rs':
        t = transform(args[1]); ts = '⟨' + ', '.join(q(x) for x in t) + '⟩'
        return f'Paths.applyTransform {ts} {q(t[0])} (Paths.convToAbsolute Paths.pos0 {path(args[0])}) = {path(args[2])}'
    if f == 'paths/conv_segments.rs':
        return f'Paths.convertSegments (Paths.convToAbsolute Paths.pos0 {path(args[0])}) = some {path(args[1])}'
    if f == 'paths/rm_unused.rs':
        return f'(Paths.hvToL (Paths.convToAbsolute Paths.pos0 {path(args[0])})).bind Paths.removeUnused = some {path(args[1])}'
    if mod == 'table_tests':
        rows = [re.sub('.', lambda c: {'*': 't', '-': 'f'}[c.group()], r) for r in re.findall(r'"([^"]*)"', args[0][1])]
        lst = lambda r: '[' + ', '.join('true' if c in 't*' else 'false' for c in r) + ']'
        exp = [] if args[1] == 'empty table' else [(l.count('fill='), re.search(r'\|(.*)\|', l).group(1)) for l in args[1].split('\n')]
        return 'tableTest [' + ', '.join(lst(r) for r in rows) + '] = [' + ', '.join(f'({n}, {lst(r)})' for n, r in exp) + ']'
    if f == 'preclean_checks.rs':
        if mac == 'test_ok': return f'Simple.precleanChecks {lean(args[0])} = .ok ()'
        return f'Simple.precleanChecks {lean(args[0])} = .error {ERR[args[1]]}'
    if f == 'rm_dupl_defs/mod.rs':
        return f'stopsTest {lean(args[0])} = some {args[1][1]}'
    if f == 'rm_elems.rs':
        tag = args[0][1].split('::')[1]; tag = tag[0].lower() + tag[1:]
        return f'gives false [sure (Simple.removeElement .{tag})] {lean(args[1])} {lean(args[2])} = true'
    if mac == 'test_xmlns':
        return f'gives false [may (Simple.fixXmlnsAttribute {args[2][1]})] {lean(args[0])} {lean(args[1])} = true'
    if mac.startswith('test_space'):
        return f'gives false [sure TextAttrs.rmSpace] {lean(args[0])} {lean(args[-1])} = true'
    if mac == 'test_err':
        return f'isErr (Inherit.resolveInherit {lean(args[0])}) = true'
    run = RUN.get((f, mod))
    if run is None: return None
    hid = 'true' if f == 'resolve_gradients.rs' else 'false'
    return f'gives {hid} [{", ".join(run)}] {lean(args[0])} {lean(args[-1])} = true'
HEAD = '''import Verif.RepoTest
/-
Generated by tools/repotests.py: the unit tests of the files under `src/task` named below, run on the model.
Each example is one test of the repository: the document (or path) it starts from and the one it expects.
-/
set_option maxRecDepth 20000
set_option maxHeartbeats 1000000
namespace Verif.RepoTest
open Verif.Dom Verif.Pipeline

'''
def main():
    for o in glob.glob(OUT + 'RepoTests?.lean'): os.remove(o)
    out, n, k, skipped = '', 0, 0, []
    def flush():
        nonlocal out, k
        k += 1; open(f'{OUT}RepoTests{chr(64 + k)}.lean', 'w').write(HEAD + out + 'end Verif.RepoTest\n'); out = ''
    for p in sorted(glob.glob(REPO + '**/*.rs', recursive=True)):
        f = p[len(REPO):]
        for (mod, mac, name, args, line) in tests(p):
            try: prop = one(f, mod, mac, name, args, line)
            except Exception as e: prop = None; print('error', f, name, repr(e))
            if prop is None: skipped.append((f, name)); continue
            if (f, name) in DIFFERS: out += f'-- {f}:{line} {name}: left out, {DIFFERS[f, name]}\n\n'; continue
            out += f'-- {f}:{line} {name}\nexample : {prop} := by decide +kernel\n\n'; n += 1
            if n % 75 == 0: flush()
    if out: flush()
    print(n, 'tests;', 'skipped', skipped)
DIFFERS = {('group_by_style.rs', 'rm_4'): 'it is about min_nodes_count = 3, which the code never uses (the parent is svg or g)'}
main()
