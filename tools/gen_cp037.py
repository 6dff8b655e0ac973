"""Generate lean/Verif/Py/Cp037.lean from the code page table of the Python standard library."""
import pathlib
dec = [ord(bytes([b]).decode('cp037')) for b in range(256)]
enc = [None] * 256
for b, c in enumerate(dec):
    enc[c] = b
assert None not in enc
def fmt(name, doc, xs):
    rows = [', '.join('%d' % x for x in xs[i:i + 16]) for i in range(0, 256, 16)]
    return '/-- %s -/\ndef %s : List Nat := [\n  %s]\n' % (doc, name, ',\n  '.join(rows))
out = '''/-!
# Code page 037 (EBCDIC)

Generated by tools/gen_cp037.py from the standard library codec `cp037` (`encodings/cp037.py` of CPython), which
segpy/encoding.py:9 names.  The code page is a permutation of the 256 Latin-1 characters.
-/

namespace Segpy

''' + fmt('cp037DecodeTable', 'Entry `b` is the code point to which byte `b` decodes.', dec) + '\n' + \
    fmt('cp037EncodeTable', 'Entry `c` is the byte to which code point `c < 256` encodes.', enc) + '\nend Segpy\n'
pathlib.Path(__file__).parent.parent.joinpath('lean/Verif/Py/Cp037.lean').write_text(out)
