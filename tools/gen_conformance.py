# Turns the tables of test/int_test.hpp into lean/Verif/Conformance/IntTables.lean.
import re
src = open('/repo/test/int_test.hpp').read()
src = re.sub(r'//[^\n]*', '', src)
src = src[src.index('TEST(quotientAndRemainder)'):]
src = re.sub(r'"\s*\n\s*"', '', src)
NUM = r'(?:Int\(\s*"?\s*(-?\s*\d+)\s*"?\s*\)|(-?\d+))'
def calls(name, n):
    out = []
    for m in re.finditer(r'CHECK\(' + name + r'\(\s*' + r'\s*,\s*'.join([NUM] * n) + r'\s*\)\s*\)', src):
        g = m.groups()
        out.append(tuple((g[2*i] or g[2*i+1]).replace(' ', '') for i in range(n)))
    return out
def lit(z): return z if not z.startswith('-') else '(' + z + ')'
out = []
total = 0
for fn, cxx, n in [('addition', 'runAddition', 3), ('subtraction', 'runSubtraction', 3), ('multiplication', 'runMultiplication', 3),
                   ('divideByInt', 'runDivideByInt', 3), ('division', 'runDivision', 3), ('modulus', 'runModulus', 3),
                   ('exponentiation', 'runExponentiation', 3), ('timesPowerTen', 'runTimesPowerTen', 3),
                   ('quotRem', 'runQuotientAndRemainder', 4)]:
    c = calls(cxx, n)
    total += len(c)
    ty = ' × '.join(['Int'] * n)
    out.append(f'/-- The calls of `{cxx}` on literals in test/int_test.hpp. -/\ndef {fn}Table : List ({ty}) := [\n' +
        ',\n'.join('  (' + ', '.join(lit(z) for z in t) + ')' for t in c) + ']\n')
    print(fn, len(c), 'of', len(re.findall(r'CHECK\(' + cxx, src)))
head = '''/-!
# The tables of test/int_test.hpp

Written by tools/gen_conformance.py from the text of the file.
-/

namespace CppMaths.Conformance

'''
open('/verif/lean/Verif/Conformance/IntTables.lean', 'w').write(head + '\n'.join(out) + '\nend CppMaths.Conformance\n')
print(total)
