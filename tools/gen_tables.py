#!/usr/bin/env python3
"""Writes lean/Verif/AS/Tables.lean from the text of /repo/activitystreams (parsed, not run)."""
import ast
R = '/repo/activitystreams/'
def q(s): return '"' + s + '"'
def lst(xs): return '[' + ', '.join(xs) + ']'

# ---- properties.py
props = []
for node in ast.parse(open(R + 'properties.py').read()).body:
    if not (isinstance(node, ast.ClassDef) and node.name != 'ActivityStreamsProperty'): continue
    assert [b.id for b in node.bases] == ['ActivityStreamsProperty']
    row = dict(cls=node.name, line=node.lineno)
    fns = [f for f in node.body if isinstance(f, ast.FunctionDef)]
    rest = [f for f in node.body if not isinstance(f, (ast.FunctionDef, ast.Expr))]
    assert len({f.name for f in fns}) == 1
    name = fns[0].name
    row['name'] = name
    row['json'] = '.default'
    def mangle(s):
        return '_%s%s' % (node.name, s) if s.startswith('__') and not s.endswith('__') else s
    def getter(f):
        # returns (slot, strict, converts)
        b = f.body
        def slot(e):
            if isinstance(e, ast.Call):
                assert e.func.id == 'getattr' and e.args[2].value is None
                return e.args[1].value, False
            assert isinstance(e, ast.Attribute) and e.value.id == 'self'
            return mangle(e.attr), True
        if len(b) == 1: return (*slot(b[0].value), None)
        assert len(b) == 3 and isinstance(b[0], ast.Assign)
        t = b[1]
        assert t.test.func.id == 'isinstance' and t.test.args[0].id == 'val'
        conv = (t.test.args[1].id, t.body[0].value.func.id)
        assert b[2].value.id == 'val'
        return (*slot(b[0].value), conv)
    for f in fns:
        d = [ast.unparse(x) for x in f.decorator_list]
        if d[0] == 'contextualproperty':
            assert d[1:] in ([], ['Link.expand'])
            row['expand'] = d[1:] == ['Link.expand']
            row['read'], row['strict'], c = getter(f)
            assert c is None
        elif d[0] == name + '.getter_context(JSON_DATA_CONTEXT)':
            s, st, c = getter(f)
            assert s == row['read'] and not st
            assert d[1:] in ([], ['Link.href_only'])
            href = d[1:] == ['Link.href_only']
            row['json'] = {(True, None): '.href', (False, ('datetime', 'datetime_str')): '.date',
                           (False, ('timedelta', 'timedelta_str')): '.delta',
                           (True, ('datetime', 'datetime_str')): '.hrefDate'}[(href, c)]
        elif d[0] == name + '.setter':
            chk = f.decorator_list[-1]
            assert chk.attr == 'check' and chk.value.func.id == 'SetterValidator'
            assert [x for x in d[1:-1]] in ([], ['Link.from_str'])
            row['fromStr'] = d[1:-1] == ['Link.from_str']
            kw = {k.arg: k.value for k in chk.value.keywords}
            assert not chk.value.args
            row['types'] = [e.id for e in kw['types'].elts]
            row['functional'] = 'functional' in kw and kw['functional'].value
            row['additional'] = [e.id for e in kw['additional'].elts] if 'additional' in kw else []
            assert set(kw) <= {'types', 'functional', 'additional', 'secure', 'skip_none'}
            st = f.body[0]
            assert len(f.body) == 1
            if isinstance(st, ast.Expr):
                assert st.value.func.id == 'setattr' and st.value.args[2].id == 'val'
                row['write'], row['parse'] = st.value.args[1].value, False
            else:
                row['write'] = mangle(st.targets[0].attr)
                v = st.value
                if isinstance(v, ast.Name): assert v.id == 'val'; row['parse'] = False
                else: assert v.func.id == 'parse_activitystream_datetime'; row['parse'] = True
        else: raise Exception(d)
    props.append(row)

# ---- models.py
NS = 'https://www.w3.org/ns/activitystreams'
classes = []
for node in ast.parse(open(R + 'models.py').read()).body:
    if not isinstance(node, ast.ClassDef): continue
    row = dict(cls=node.name, line=node.lineno, bases=[b.id for b in node.bases], init=None)
    for f in node.body:
        if isinstance(f, ast.Assign) and f.targets[0].id == 'type': row['type'] = f.value.value
        if isinstance(f, ast.FunctionDef) and f.name == '__init__':
            ps = [a.arg for a in f.args.args][1:]
            assert f.args.kwarg.arg == 'kwargs' and not f.args.kwonlyargs
            nd = len(f.args.defaults)
            req = ps[:len(ps) - nd]
            for p, dflt in zip(ps[len(ps) - nd:], f.args.defaults):
                if p == 'acontext': assert ast.unparse(dflt) in ('ACTIVITYSTREAMS_NS', q(NS), "'%s'" % NS)
                else: assert dflt.value is None
            stmts = []
            for s in f.body:
                if isinstance(s, ast.Expr):
                    c = s.value
                    args = [(k.arg, k.value.id) for k in c.keywords if k.arg]
                    star = any(k.arg is None for k in c.keywords)
                    fn = ast.unparse(c.func)
                    pos = c.args
                    if fn == 'super().__init__': base = 'none'
                    else:
                        base = '(some %s)' % q(c.func.value.id)
                        assert pos[0].id == 'self'; pos = pos[1:]
                    if pos: assert [p.id for p in pos] == ['id']; args = [('id', 'id')] + args
                    stmts.append('.call %s %s %s' % (base, lst('(%s, %s)' % (q(a), q(b)) for a, b in args), 'true' if star else 'false'))
                else:
                    a, v = s.targets[0].attr, s.value
                    assert s.targets[0].value.id == 'self'
                    if isinstance(v, ast.Name): stmts.append('.set %s %s' % (q(a), q(v.id)))
                    elif isinstance(v, ast.Call):
                        assert v.func.id == 'getattr' and v.args[0].id == 'self' and v.args[1].value == a
                        stmts.append('.keepOr %s %s' % (q(a), q(v.args[2].id)))
                    elif ast.unparse(v) == 'startIndex if startIndex else 0': stmts.append('.orZero %s %s' % (q(a), q('startIndex')))
                    else:
                        assert ast.unparse(v) == 'totalItems if totalItems else 0 if not isinstance(self.items, Sized) else len(self.items)', ast.unparse(v)
                        stmts.append('.total %s %s %s' % (q(a), q('totalItems'), q('items')))
            row['init'] = (f.lineno, ps, req, stmts)
    classes.append(row)

# ---- package.py
pk = ast.parse(open(R + 'package.py').read()).body
for s in pk:
    if isinstance(s, ast.Assign):
        n = s.targets[0].id
        if n == 'pkg_classes': pc = [e.attr for e in s.value.elts]; assert all(e.value.id == 'models' for e in s.value.elts)
        if n == 'pkg_properties': pp = [e.attr for e in s.value.elts]; assert all(e.value.id == 'properties' for e in s.value.elts)
        if n == 'property_mapping':
            def ns(e, m):
                assert e.func.attr == '__get_namespace__' and e.func.value.value.id == m
                return e.func.value.attr
            mp = [(ns(k, 'models'), [ns(e, 'properties') for e in v.elts]) for k, v in zip(s.value.keys, s.value.values)]

out = []
w = out.append
w('''import Verif.AS.Rows

/-!
# The tables of the ActivityStreams package

Written by tools/gen_tables.py from the text of activitystreams/properties.py, models.py and package.py; not edited by hand.
-/
namespace Verif.AS
''')
w('/-- activitystreams/properties.py:52-1417: the property classes (the line is that of the class statement) -/')
w('def propTable : List PropRow := [')
b = lambda x: 'true' if x else 'false'
w(',\n'.join('  { cls := %s, line := %d, name := %s, read := %s, strict := %s, expand := %s, json := %s,\n    write := %s, fromStr := %s, parse := %s, types := %s, functional := %s, additional := %s }' % (
    q(r['cls']), r['line'], q(r['name']), q(r['read']), b(r['strict']), b(r['expand']), r['json'], q(r['write']), b(r['fromStr']), b(r['parse']),
    lst(map(q, r['types'])), b(r['functional']), lst('.' + {'validate_url': 'url', 'is_nonnegative': 'nonnegative', 'is_activity_datetime': 'datetime'}[a] for a in r['additional'])) for r in props) + ']')
w('')
w('/-- activitystreams/models.py:33-926: the classes (the line is that of the class statement) -/')
w('def classTable : List ClassRow := [')
def ini(r):
    if r['init'] is None: return 'none'
    l, ps, req, st = r['init']
    return 'some {\n    line := %d, params := %s,\n    required := %s,\n    body := [\n      %s] }' % (l, lst(map(q, ps)), lst(map(q, req)), ',\n      '.join(st))
w(',\n'.join('  { cls := %s, line := %d, type := %s, bases := %s, init := %s }' % (q(r['cls']), r['line'], q(r['type']), lst(map(q, r['bases'])), ini(r)) for r in classes) + ']')
w('')
base = [('NamespacedObject', ['object']), ('PropertyAwareObject', ['NamespacedObject']), ('PropertyJsonLD', ['PropertyAwareObject']),
        ('ApplicationActivityJson', ['PropertyJsonLD'])]
made = {'object': object}
hier = base + [(r['cls'], r['bases']) for r in classes]
for n, bs in hier: made[n] = type(n, tuple(made[x] for x in bs), {})
w('/-- Bases and mro of the classes above and of jsonld/base.py:180, 294 and jsonld/jsonld.py:16, 126.  The mro is computed by Python from')
w('the bases; Props/Model.lean checks it against C3. -/')
w('def hierTable : List (String × List String × List String) := [')
w(',\n'.join('  (%s, %s, %s)' % (q(n), lst(map(q, bs)), lst(q(c.__name__) for c in made[n].__mro__)) for n, bs in [('object', [])] + hier) + ']')
w('')
w('/-- activitystreams/package.py:6-61 `pkg_classes` -/')
w('def pkgClasses : List String := ' + lst(map(q, pc)))
w('')
w('/-- package.py:63-128 `pkg_properties` -/')
w('def pkgProperties : List String := ' + lst(map(q, pp)))
w('')
w('/-- package.py:130-200 `property_mapping`, by class names (the code uses the namespaces of these classes) -/')
w('def pkgMapping : List (String × List String) := [')
w(',\n'.join('  (%s, %s)' % (q(k), lst(map(q, v))) for k, v in mp) + ']')
w('')
w('end Verif.AS')
s = '\n'.join(out) + '\n'
import textwrap
res = []
for line in s.split('\n'):
    if len(line) > 140 and not line.startswith('/--'):
        ind = len(line) - len(line.lstrip())
        res += textwrap.wrap(line.lstrip(), 135, initial_indent=' ' * ind, subsequent_indent=' ' * (ind + 2), break_long_words=False, break_on_hyphens=False)
    else: res.append(line)
open('/verif/lean/Verif/AS/Tables.lean', 'w').write('\n'.join(res))
print(len(props), len(classes), len(pc), len(pp), len(mp))
