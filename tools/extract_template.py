"""Generate lean/Verif/Model/Template.lean from /repo/segpy/textual_reel_header.py (read as text, not imported)."""
import ast, pathlib
src = open('/repo/segpy/textual_reel_header.py').read()
tree = ast.parse(src)
vals, lines = {}, {}
for node in tree.body:
    if isinstance(node, ast.Assign):
        n = node.targets[0].id
        lines[n] = (node.lineno, node.end_lineno)
        try:
            vals[n] = ast.literal_eval(node.value)
        except Exception:
            pass
tpl = vals['_TEMPLATE'].splitlines()[1:]
names = list(vals['TEMPLATE_FIELD_NAMES'].items())
cite = lambda n: 'textual_reel_header.py:%d-%d' % lines[n]
q = lambda s: '"' + s.replace('\\', '\\\\').replace('"', '\\"') + '"'
out = '''import Verif.Py.Text

/-!
# The standard textual header template

Generated by tools/extract_template.py from `segpy/textual_reel_header.py`.
-/

namespace Segpy

/-- The code points of the lines of `_TEMPLATE` after the first (empty) one, %s.  (Given as code points rather than as
string literals because the kernel evaluates these much faster.) -/
def templateLines : List (List Nat) := [
%s]

/-- `TEMPLATE`, %s. -/
def TEMPLATE : PyStr := templateLines.flatten.map Char.ofNat

/-- `TEMPLATE_FIELD_NAMES`, %s: placeholder name to field name. -/
def TEMPLATE_FIELD_NAMES : List (String × String) := [
  %s]

/-- `END_TEXTUAL_HEADER`, %s. -/
def END_TEXTUAL_HEADER : PyStr := %s.toList

/-- `END_EBCDIC`, %s. -/
def END_EBCDIC : PyStr := %s.toList

end Segpy
''' % (cite('_TEMPLATE'), ',\n'.join('  -- ' + l + '\n  [' + ',\n   '.join(', '.join(str(ord(c)) for c in l[i:i+20]) for i in range(0, 80, 20)) + ']' for l in tpl), cite('TEMPLATE'), cite('TEMPLATE_FIELD_NAMES'),
       ',\n  '.join('(%s, %s)' % (q(a), q(b)) for a, b in names),
       cite('END_TEXTUAL_HEADER'), q(vals['END_TEXTUAL_HEADER']), cite('END_EBCDIC'), q(vals['END_EBCDIC']))
pathlib.Path(__file__).parent.parent.joinpath('lean/Verif/Model/Template.lean').write_text(out)
print(len(tpl), set(map(len, tpl)), len(names), len(set(a for a, _ in names)), len(set(b for _, b in names)))
import re
t=''.join(tpl); ph=[m.group(1) for m in re.finditer(r'\{\s*(\w*)\s*\}', t)]
print(len(ph), len(set(ph)), set(ph)-set(a for a,_ in names), set(a for a,_ in names)-set(ph))
