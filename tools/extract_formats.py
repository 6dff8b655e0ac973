#!/usr/bin/env python3
"""Generate lean/Verif/Model/Formats.lean from the text of the header format modules.

The sources are parsed with `ast`, never imported or run.
"""
import ast
import os

REPO = '/repo/segpy'
OUT = os.path.join(os.path.dirname(os.path.abspath(__file__)), '..', 'lean', 'Verif', 'Model', 'Formats.lean')


def parse(name):
    with open(os.path.join(REPO, name), encoding='utf-8') as f:
        return ast.parse(f.read())


def span(node):
    return '{}-{}'.format(node.lineno, node.end_lineno)


enums = {}      # name -> ([(member, value)], file, lines)
types = {}      # name -> lean text
order = []
headers = []


def const(node):
    if isinstance(node, ast.Attribute) and isinstance(node.value, ast.Name) and node.value.id in enums:
        return dict(enums[node.value.id][0])[node.attr]
    if isinstance(node, ast.UnaryOp) and isinstance(node.op, ast.USub):
        return -const(node.operand)
    assert isinstance(node, ast.Constant), ast.dump(node)
    return node.value


def lean_int(v):
    return '({})'.format(v) if v < 0 else str(v)


def opt(v):
    return 'none' if v is None else '(some {})'.format(lean_int(v))


def lower(name):
    return 'vt' + name


for fname in ['datatypes.py', 'revisions.py', 'field_types.py', 'binary_reel_header.py', 'trace_header.py']:
    for cls in parse(fname).body:
        if not isinstance(cls, ast.ClassDef):
            continue
        bases = [b.id for b in cls.bases if isinstance(b, ast.Name)]
        kws = {k.arg: k.value for k in cls.keywords}
        if 'IntEnum' in bases:
            members = []
            for st in cls.body:
                if isinstance(st, ast.Assign):
                    members.append((st.targets[0].id, const(st.value)))
            enums[cls.name] = (members, fname, span(cls))
        meta = kws.get('metaclass')
        if isinstance(meta, ast.Name) and meta.id == 'IntFieldMeta':
            mn = const(kws['min_value']) if 'min_value' in kws else None
            mx = const(kws['max_value']) if 'max_value' in kws else None
            order.append((cls.name, 'int', (const(kws['seg_y_type']), mn, mx), fname, span(cls)))
        if isinstance(meta, ast.Name) and meta.id == 'IntEnumFieldMeta':
            e = kws['enum']
            ename = e.id if isinstance(e, ast.Name) else e.attr
            seg = const(kws['seg_y_type']) if 'seg_y_type' in kws else 'int16'
            order.append((cls.name, 'enum', (ename, seg), fname, span(cls)))
        fields = []
        layout = {}
        for st in cls.body:
            if isinstance(st, ast.Assign) and isinstance(st.value, ast.Call) and isinstance(st.value.func, ast.Name) \
                    and st.value.func.id == 'field':
                call = st.value
                args = {k.arg: k.value for k in call.keywords}
                vt = call.args[0].id if isinstance(call.args[0], ast.Name) else call.args[0].attr
                assert len(call.args) == 1
                fields.append((st.targets[0].id, vt, const(args['offset']), const(args['default']), st.lineno,
                               st.end_lineno))
            elif isinstance(st, ast.Assign) and st.targets[0].id in ('START_OFFSET_IN_BYTES', 'LENGTH_IN_BYTES'):
                layout[st.targets[0].id] = const(st.value)
        if fields:
            headers.append((cls.name, bases[0], fields, layout, fname, span(cls)))

out = []
w = out.append
w('import Verif.Model.Header')
w('')
w('/-!')
w('# The shipped field types and header formats')
w('')
w('Generated by `tools/extract_formats.py` from the text of datatypes.py, revisions.py, field_types.py,')
w('binary_reel_header.py and trace_header.py.  Do not edit.  Documentation strings are left out.')
w('-/')
w('')
w('namespace Segpy')
w('')
for name, (members, fname, lines) in enums.items():
    w('/-- The values of `{}`, {}:{}: {}. -/'.format(
        name, fname, lines, ', '.join('{} = {}'.format(m, v) for m, v in members)))
    seen = []
    for _, v in members:
        if v not in seen:
            seen.append(v)
    w('def enum{} : List Int := [{}]'.format(name, ', '.join(str(v) for v in seen)))
    w('')
for name, kind, data, fname, lines in order:
    w('/-- `{}`, {}:{}. -/'.format(name, fname, lines))
    if kind == 'int':
        seg, mn, mx = data
        w('def vt{} : ValueType := .mkInt "{}" .{} {} {}'.format(name, name, seg, opt(mn), opt(mx)))
    else:
        ename, seg = data
        w('def vt{} : ValueType := ⟨"{}", .{}, IntType.{}.limitMin, IntType.{}.limitMax, some enum{}⟩'.format(
            name, name, seg, seg, seg, ename))
    w('')
w('/-- The calls of `IntEnumFieldMeta.__new__` (field_types.py:84-93) in the modules, and the types made. -/')
w('def enumFieldTypes : List (String × List Int × IntType × ValueType) := [')
rows = ['  ("{}", enum{}, .{}, vt{})'.format(n, d[0], d[1], n) for n, k, d, _, _ in order if k == 'enum']
w(',\n'.join(rows) + ']')
w('')
for name, base, fields, layout, fname, lines in headers:
    w('/-- The class statement of `{}`, {}:{}. -/'.format(name, fname, lines))
    w('def level{} : Level where'.format(name))
    w('  name := "{}"'.format(name))
    w('  start_offset := {}'.format(opt(layout.get('START_OFFSET_IN_BYTES'))))
    w('  length_in_bytes := {}'.format(opt(layout.get('LENGTH_IN_BYTES'))))
    w('  fields := [')
    rows = []
    for i, (f, vt, off, dflt, a, b) in enumerate(fields):
        comma = ',' if i + 1 < len(fields) else ']'
        rows.append('    ⟨"{}", vt{}, {}, {}⟩{}  -- {}-{}'.format(f, vt, off, lean_int(dflt), comma, a, b))
    w('\n'.join(rows))
    w('')
    w('/-- `{}`, {}:{}. -/'.format(name, fname, lines))
    if base == 'Header':
        w('def fmt{} : Format := [level{}]'.format(name, name))
    else:
        w('def fmt{} : Format := fmt{} ++ [level{}]'.format(name, base, name))
    w('')
w('end Segpy')
open(OUT, 'w', encoding='utf-8').write('\n'.join(out) + '\n')
