"""Translate the python of /repo/coralign into the array programs of Verif/Model/MemProgs.lean.

Usage: python3 tools/memgen.py [/repo] > lean/Verif/Model/MemProgs.lean

Only reads the source as text.  The rules are in the header of the generated module.
"""
import ast, pathlib, sys

repo = pathlib.Path(sys.argv[1] if len(sys.argv) > 1 else '/repo')
base = repo / 'coralign'
SKIP = {'debug.py', '__init__.py'}

# numpy, scipy, ... routines that always build a new array or return a number,
# string or other object that holds no caller's array
NEW = set('''
np.abs np.allclose np.amax np.amin np.angle np.any np.arange np.arctan2 np.argmax np.argmin np.array
np.ceil np.concatenate np.conj np.cos np.dot np.empty np.exp np.eye np.fft.fft2 np.fft.fftfreq
np.fft.fftn np.fft.fftshift np.fft.ifft2 np.fft.ifftn np.fft.ifftshift np.finfo np.fix np.floor
np.full np.histogram np.hstack np.hypot np.interp np.iscomplex np.iscomplexobj np.isreal
np.isrealobj np.linalg.lstsq np.linspace np.loadtxt np.logical_and np.logical_not np.logical_or
np.max np.mean np.meshgrid np.min np.nonzero np.ones np.ones_like np.outer np.percentile np.polyfit
np.radians np.round np.shape np.sin np.sinc np.size np.sort np.sqrt np.std np.sum np.tensordot
np.unique np.unravel_index np.where np.zeros np.zeros_like
fft2 fftshift ifft2 ifftshift binary_dilation binary_erosion canny convolve scipy.signal.convolve
hough_circle hough_circle_peaks scipy.ndimage.rotate scipy.ndimage.shift rotate
scipy.sparse.issparse scipy.sparse.lil_matrix scipy.sparse.linalg.spsolve scipy.special.gamma
skimage.morphology.remove_small_objects unwrap_phase cv2.findContours cv2.fitEllipse fminbound
Box2DKernel generate_binary_structure fits.getdata yaml.safe_load
any bool float hasattr int isinstance issubclass len print range round slice str type
open os.path.abspath os.path.dirname os.path.join os.path.realpath Path
plt.colorbar plt.figure plt.gca plt.imshow plt.pause plt.title debug_plot
'''.split())
# methods whose result is a new array or not an array
NEWM = set('''all any dot astype copy flatten format max min prod sum shift tocsr upper
invert_yaxis safe_load'''.split())
# in-place operations; the tool stops if the source uses one
INPLACE = set('''sort fill resize put partition itemset setflags update extend insert pop remove clear copyto
place putmask setdefault byteswap add_at'''.split())
NEWATTR = {'shape', 'size', 'dtype', 'ndim', 'pi', 'newaxis', 'bool', 'float64', 'eps'}
CONSTS = {'SELEM_DEFAULT'}   # module constants that are arrays
SCALARCHECK = {'real_scalar', 'real_positive_scalar', 'real_nonnegative_scalar', 'scalar_integer',
               'nonnegative_scalar_integer', 'positive_scalar_integer', 'boolean', 'string'}

files = [p for p in sorted(base.rglob('*.py'))
         if p.name not in SKIP and not p.name.startswith('ut_') and 'tests' not in p.parts]
mods, funcs, order, consts = {}, {}, [], set()
for p in files:
    m = '.'.join(('coralign',) + p.relative_to(base).with_suffix('').parts)
    t = ast.parse(p.read_text())
    mods[m] = (p, t)
    for n in t.body:
        if isinstance(n, ast.FunctionDef):
            funcs[(m, n.name)] = len(order)
            order.append((m, n.name, n))

def imports(m, t):
    """local name -> ('f', function number) | ('m', module)"""
    env = {}
    for (mm, name), k in funcs.items():
        if mm == m: env[name] = ('f', k)
    for n in ast.walk(t):
        if isinstance(n, ast.ImportFrom):
            mod = n.module or ''
            if n.level:
                parts = m.split('.')[:-n.level]
                mod = '.'.join(parts + ([mod] if mod else []))
            for a in n.names:
                nm = a.asname or a.name
                if (mod, a.name) in funcs: env[nm] = ('f', funcs[(mod, a.name)])
                elif mod + '.' + a.name in mods: env[nm] = ('m', mod + '.' + a.name)
        elif isinstance(n, ast.Import):
            for a in n.names:
                if a.name in mods: env[a.asname or a.name] = ('m', a.name)
    return env

class Tr:
    def __init__(self, k, m, name, node, env):
        self.m, self.env, self.node = m, env, node
        a = node.args
        self.params = [x.arg for x in a.posonlyargs + a.args + a.kwonlyargs]
        assert not a.vararg and not a.kwarg, name
        self.vars = {x: i for i, x in enumerate(self.params)}
        assigned = {n.id for n in ast.walk(node) if isinstance(n, ast.Name)
                    and isinstance(n.ctx, ast.Store)}
        self.locals = set(self.params) | assigned
        self.useconst = k in consts
        if self.useconst: self.var('CONSTS')
        self.nparams = len(self.vars)
        self.out, self.ntmp = [], 0

    def var(self, x):
        return self.vars.setdefault(x, len(self.vars))

    def tmp(self):
        self.ntmp += 1
        return self.var(f'tmp{self.ntmp}')

    def emit(self, s, line=None, src=None):
        self.out.append((s, line, src))

    def resolve(self, f):
        if isinstance(f, ast.Name) and f.id not in self.locals:
            r = self.env.get(f.id)
            return r[1] if r and r[0] == 'f' else None
        if isinstance(f, ast.Attribute) and isinstance(f.value, ast.Name) and f.value.id not in self.locals:
            r = self.env.get(f.value.id)
            if r and r[0] == 'm': return funcs.get((r[1], f.attr))
        return None

    # variables the value of an expression may share memory with
    def al(self, e):
        if e is None or isinstance(e, (ast.Constant, ast.Compare, ast.JoinedStr)):
            for c in ast.iter_child_nodes(e) if e is not None else []:
                if isinstance(c, ast.expr): self.al(c)
            return set()
        if isinstance(e, ast.Name):
            if e.id in self.locals:
                return {self.var(e.id)}
            if e.id in CONSTS:
                self.useconst = True
                return {self.var('CONSTS')}
            return set()
        if isinstance(e, (ast.BinOp, ast.UnaryOp)):
            for c in ast.iter_child_nodes(e):
                if isinstance(c, ast.expr): self.al(c)
            return set()
        if isinstance(e, ast.Subscript):
            self.al(e.slice)
            return self.al(e.value)
        if isinstance(e, ast.Attribute):
            s = self.al(e.value)
            return set() if e.attr in NEWATTR else s
        if isinstance(e, (ast.Slice, ast.Tuple, ast.List, ast.BoolOp, ast.IfExp, ast.Dict, ast.Starred, ast.Set)):
            return set().union(*[self.al(c) for c in ast.iter_child_nodes(e) if isinstance(c, ast.expr)], set())
        if isinstance(e, ast.ListComp):
            s = set()
            for g in e.generators: s |= self.al(g.iter)
            return s | self.al(e.elt)
        if isinstance(e, ast.Call):
            return self.call(e, None)
        raise Exception((self.m, ast.dump(e)[:200]))

    def call(self, e, targets):
        """returns the alias set; package calls go through a temporary"""
        k = self.resolve(e.func)
        if k is not None:
            _, nm, node = order[k]
            ps = [x.arg for x in node.args.posonlyargs + node.args.args + node.args.kwonlyargs]
            got = {}
            for i, a in enumerate(e.args): got[ps[i]] = self.al(a)
            for kw in e.keywords: got[kw.arg] = self.al(kw.value)
            argl = []
            defs = dict(zip([x.arg for x in node.args.args][::-1], node.args.defaults[::-1]))
            for p in ps + (['CONSTS'] if k in consts else []):
                if p == 'CONSTS': self.useconst = True; got[p] = {self.var('CONSTS')}
                if p not in got and isinstance(defs.get(p), ast.Name) and defs[p].id in CONSTS:
                    self.useconst = True; got[p] = {self.var('CONSTS')}
                s = sorted(got.get(p, set()))
                argl.append(s)
            if targets is None: targets = [self.tmp()]
            self.emit(f'.call {targets} {k} {argl}', e.lineno, nm)
            return set(targets)
        last = e.func.attr if isinstance(e.func, ast.Attribute) else e.func.id
        assert (last not in INPLACE or ast.unparse(e.func) in NEW) and not any(kw.arg in ('out', 'overwrite_x', 'overwrite_input', 'inplace')
                                               for kw in e.keywords), ast.unparse(e)
        s, names = set(), []
        for a in list(e.args) + [kw.value for kw in e.keywords]:
            kk = self.resolve(a) if isinstance(a, (ast.Name, ast.Attribute)) else None
            if kk is not None: names.append(kk)
            else: s |= self.al(a)
        for kk in names:   # a package function handed to an external routine
            n = len(order[kk][2].args.args)
            self.out.append(('LOOP', [(f'.call [] {kk} {[sorted(s)] * n}', e.lineno, 'calls ' + order[kk][1])]))
        f = e.func
        full = ast.unparse(f)
        keeps = any(kw.arg == 'copy' for kw in e.keywords)   # np.array(x, copy=False) may be x itself
        if full in NEW and not keeps: return set()
        if isinstance(f, ast.Attribute):
            root = f
            while isinstance(root, ast.Attribute): root = root.value
            isobj = not (isinstance(root, ast.Name) and root.id not in self.locals)
            if isobj:
                b = self.al(f.value)
                return set() if f.attr in NEWM and not keeps else b | s
            return s
        if isinstance(f, ast.Name) and f.id in self.locals:
            return s | {self.var(f.id)}
        return s

    def base(self, t):
        """variables whose array an assignment to this target writes into"""
        if isinstance(t, ast.Name): return {self.var(t.id)}
        if isinstance(t, (ast.Subscript, ast.Attribute)): 
            if isinstance(t, ast.Subscript): self.al(t.slice)
            return self.base(t.value)
        if isinstance(t, ast.Call): return self.base(t.func.value)
        raise Exception(ast.dump(t))

    def assign(self, targets, s, line, src):
        for t in targets:
            if isinstance(t, ast.Name):
                v = self.var(t.id)
                self.emit(f'.alloc {v}' if not s else f'.bind {v} {sorted(s)}', line, src)
            elif isinstance(t, (ast.Tuple, ast.List)):
                self.assign(t.elts, s, line, src)
            else:
                for v in sorted(self.base(t)): self.emit(f'.write {v}', line, src)

    def block(self, body):
        save, self.out = self.out, []
        for st in body: self.stmt(st)
        r, self.out = self.out, save
        return r

    def stmt(self, st):
        src = ast.unparse(st).split('\n')[0]
        ln = st.lineno
        if isinstance(st, ast.Expr):
            if isinstance(st.value, ast.Constant): return
            if isinstance(st.value, ast.Call) and isinstance(st.value.func, ast.Attribute) \
                    and st.value.func.attr == 'append' and isinstance(st.value.func.value, ast.Name):
                s = self.al(st.value.args[0]); v = self.var(st.value.func.value.id)
                self.emit(f'.write {v}', ln, src)
                if s: self.emit(f'.bind {v} {sorted(s | {v})}', ln, src)
                return
            if isinstance(st.value, ast.Call) and self.resolve(st.value.func) is not None:
                self.call(st.value, [])
                f = st.value.func
                nm = f.attr if isinstance(f, ast.Attribute) else f.id
                a0 = st.value.args[0] if st.value.args else None
                if nm in SCALARCHECK and isinstance(a0, ast.Name):
                    self.emit(f'.alloc {self.var(a0.id)}', ln, f'{a0.id} is a scalar, string or boolean')
                return
            self.al(st.value)
        elif isinstance(st, ast.Assign):
            v = st.value
            for t in st.targets:
                if isinstance(v, (ast.Tuple, ast.List)) and isinstance(t, (ast.Tuple, ast.List)):
                    ss = [self.al(x) for x in v.elts]
                    assert len(ss) == len(t.elts)
                    tt = []
                    for s in ss:
                        k = self.tmp(); tt.append(k)
                        self.emit(f'.alloc {k}' if not s else f'.bind {k} {sorted(s)}', ln, src)
                    for x, k in zip(t.elts, tt): self.assign([x], {k}, ln, src)
                elif isinstance(v, ast.Call) and self.resolve(v.func) is not None:
                    flat = t.elts if isinstance(t, (ast.Tuple, ast.List)) else [t]
                    if all(isinstance(x, ast.Name) for x in flat):
                        self.call(v, [self.var(x.id) for x in flat])
                    else: self.assign([t], self.al(v), ln, src)
                else: self.assign([t], self.al(v), ln, src)
        elif isinstance(st, ast.AugAssign):
            self.al(st.value)
            for v in sorted(self.base(st.target)): self.emit(f'.write {v}', ln, src)
        elif isinstance(st, ast.Return):
            if st.value is None: self.emit('RET []', ln, src); return
            els = st.value.elts if isinstance(st.value, (ast.Tuple, ast.List)) else [st.value]
            r = []
            for e in els:
                if isinstance(e, ast.Call) and self.resolve(e.func) is not None:
                    r += sorted(self.al(e)); continue
                s = sorted(self.al(e))
                if len(s) == 1: r.append(s[0])
                else:
                    t = self.tmp(); r.append(t)
                    self.emit(f'.alloc {t}' if not s else f'.bind {t} {s}', ln, src)
            self.emit(f'RET {r}', ln, src)
        elif isinstance(st, ast.Raise):
            self.emit('RET []', ln, 'raise')
        elif isinstance(st, (ast.Continue, ast.Break)):
            self.emit('EXIT', ln, src)
        elif isinstance(st, ast.If):
            self.al(st.test)
            a, b = self.block(st.body), self.block(st.orelse)
            onlyraise = lambda z: all(x[0] == 'RET []' and x[2] == 'raise' for x in z)
            if onlyraise(a) and onlyraise(b): return
            self.out.append(('BRANCH', a, b, ln, src))
        elif isinstance(st, ast.For):
            s = self.al(st.iter)
            save, self.out = self.out, []
            self.assign([st.target], s, ln, src)
            for x in st.body: self.stmt(x)
            b, self.out = self.out, save
            assert not st.orelse
            self.out.append(('LOOP', b, ln, src))
        elif isinstance(st, ast.While):
            save, self.out = self.out, []
            self.al(st.test)
            for x in st.body: self.stmt(x)
            b, self.out = self.out, save
            self.out.append(('LOOP', b, ln, src))
        elif isinstance(st, ast.Try):
            # every handler only raises, and the body may raise anywhere anyway
            assert all(len(h.body) == 1 and isinstance(h.body[0], ast.Raise) for h in st.handlers)
            assert not st.orelse and not st.finalbody
            for x in st.body: self.stmt(x)
        elif isinstance(st, ast.With):
            for i in st.items: self.al(i.context_expr)
            for i in st.items:
                if i.optional_vars is not None: self.assign([i.optional_vars], set(), ln, src)
            for x in st.body: self.stmt(x)
        elif isinstance(st, (ast.Pass, ast.Import, ast.ImportFrom, ast.Assert)):
            if isinstance(st, ast.Assert): self.al(st.test)
        elif isinstance(st, ast.Delete): pass
        else: raise Exception((self.m, ast.dump(st)[:100]))

def show(out, ind, tail):
    """print a block followed by tail"""
    pad = ' ' * ind
    if not out: return [pad + tail] if tail else [pad + '.done']
    x, rest = out[0], out[1:]
    def cm(ln, src):
        if ln is None: return ''
        return f'  -- {ln}: {src[:60]}'
    if x[0] == 'BRANCH':
        r = [pad + '.branch (' + cm(x[3], x[4])]
        r += show(x[1], ind + 2, None)
        r[-1] = close(r[-1])
        r += [pad + '  (']
        r += show(x[2], ind + 2, None)
        r[-1] = close(r[-1], ' <|')
        return r + show(rest, ind, tail)
    if x[0] == 'LOOP':
        ln, src = (x[2], x[3]) if len(x) > 2 else (None, None)
        r = [pad + '.loop (' + cm(ln, src)]
        r += show(x[1], ind + 2, None)
        r[-1] = close(r[-1], ' <|')
        return r + show(rest, ind, tail)
    s, ln, src = x
    if s.startswith('RET'):
        return [pad + ('.raises' if src == 'raise' else '.ret ' + s[4:]) + cm(ln, src)]
    if s == 'EXIT': return [pad + '.exit' + cm(ln, src)]
    return [pad + s + ' <|' + cm(ln, src)] + show(rest, ind, tail)

def close(line, tail=''):
    i = line.find('  -- ')
    return line + ')' + tail if i < 0 else line[:i] + ')' + tail + line[i:]

HEAD = '''import Verif.Model.Memory

/-!
# Array programs of the package

Generated by `tools/memgen.py` from the source; one program per function of `/repo/coralign`
(`util/debug.py`, which only plots, is left out).  Every line cites the source line it comes from.

Translation rules:

* a variable is a number; parameters come first, in the order of the `def`;
* arithmetic, comparisons, and the external routines listed as `NEW` in the tool (they allocate their
  result or return no array) give a new array (`alloc`); `.shape`, `.size`, … too;
* a plain name, an index or slice, `.T`, `.real`, `np.real`, `np.asarray`, `.ravel()`, `.reshape()`,
  `np.fliplr`, `np.array(…, copy=False)`, a tuple, a conditional expression, and any external routine not listed as `NEW` *may share*
  memory with every array that occurs in it (`bind`);
* the in-place routines listed as `INPLACE` in the tool and `out=` arguments do not occur (the tool would stop);
* an assignment to an index or slice, an augmented assignment (`+=`), and `.append` write in place (`write`);
  after a variable has been validated as a scalar, string or boolean it is no array (`alloc`);
* a call of a package function is a `call`; each argument is the list of variables it may share memory with,
  the empty list for a new object (numbers, strings, results of arithmetic, defaults);
* a program may stop with an exception anywhere, so a guard `if …: raise …` leaves no trace;
* `if`/`else` is `branch` with the condition unknown, `for`/`while` is `loop` with an unknown number of rounds,
  `break` and `continue` are `exit`, `raise` is `raises`; a `try` is its body, since every handler in the
  package only raises and a program may stop with an exception anywhere;
* the module constants that are arrays (`SELEM_DEFAULT`) are one more argument of the functions that use them.
-/

namespace Coralign.Memory

'''

def main():
    parts, names = [HEAD], []
    while True:   # functions that use a module constant, directly or through a callee's default
        n = len(consts)
        for k, (m, name, node) in enumerate(order):
            tr = Tr(k, m, name, node, imports(m, mods[m][1]))
            tr.block(node.body)
            if tr.useconst: consts.add(k)
        if len(consts) == n: break
    for k, (m, name, node) in enumerate(order):
        p, t = mods[m]
        tr = Tr(k, m, name, node, imports(m, t))
        body = tr.block(node.body)
        lines = show(body, 4, None)
        rel = p.relative_to(repo)
        vs = ', '.join(f'{i} `{x}`' for x, i in tr.vars.items() if not x.startswith('tmp'))
        short = m.split('.', 1)[1].replace('.', '_')
        ln = f'p{k}_{name.lstrip("_")}'
        names.append(ln)
        end = node.end_lineno
        parts.append(f'/-- `{name}`, `{rel}` lines {node.lineno}-{end}. Variables: {vs}. -/\n'
                     f'def {ln} : Fn where\n  name := "{m.split(".",1)[1]}.{name}"\n'
                     f'  params := {tr.nparams}\n  body :=\n' + '\n'.join(lines) + '\n\n')
    parts.append('/-- All functions of the package; a `call` names its callee by its place in this list. -/\n'
                 'def package : List Fn :=\n  [' + ',\n   '.join(names) + ']\n\nend Coralign.Memory\n')
    sys.stdout.write(''.join(parts))

main()
