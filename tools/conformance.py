#!/usr/bin/env python3
"""Write lean/Verif/Tests/{Accepted,Refused,Runs}.lean from the test suite in /repo.

Every `decl!` in a test is turned into tokens the way rustc does it (comments dropped, documentation
comments turned into attributes, joint punctuation).  The expected messages are read from the
`.stderr` files that the project keeps next to its tests.
"""
import os, re, struct, sys

REPO = '/repo/'
TESTS = 'chandeliers-lus/tests/'
OUT = os.path.join(os.path.dirname(os.path.abspath(__file__)), '../lean/Verif/Tests/')
PUNCT = set("~!@#$%^&*-=+|;:,<.>/?'")
CLOSE = {'(': ')', '[': ']', '{': '}'}
DELIM = {'(': 'paren', '[': 'bracket', '{': 'brace'}


def string_end(s, i):
    j = i + 1
    while s[j] != '"':
        j += 2 if s[j] == '\\' else 1
    return j + 1


def strip(src):
    out, i = '', 0
    while i < len(src):
        if src[i] == '"':
            j = string_end(src, i)
            out += src[i:j]
            i = j
        elif src.startswith('//', i):
            j = src.find('\n', i)
            j = len(src) if j < 0 else j
            if re.match(r'///(?!/)', src[i:j]):
                doc = src[i + 3:j].replace('\\', '\\\\').replace('"', '\\"')
                out += '#[doc = "%s"]' % doc
            i = j
        elif src.startswith('/*', i):
            i = src.find('*/', i) + 2
        else:
            out += src[i]
            i += 1
    return out


def tokens(s, i, close):
    r = []
    while True:
        while s[i].isspace():
            i += 1
        c = s[i]
        if c in ')]}':
            assert c == close, s[i - 40:i + 5]
            return r, i + 1
        if c in CLOSE:
            sub, i = tokens(s, i + 1, CLOSE[c])
            r.append('.group .%s [%s]' % (DELIM[c], ', '.join(sub)))
            continue
        m = re.compile(r'[A-Za-z_]\w*').match(s, i)
        if m:
            r.append('.ident "%s"' % m.group())
            i = m.end()
            continue
        m = re.compile(r'\d[\d_]*(\.\d[\d_]*|\.(?![.\w]))?([eE][+-]?\d+)?').match(s, i)
        if m:
            t = m.group().replace('_', '')
            i = m.end()
            if t.isdigit():
                r.append('.lit (.int %d)' % int(t))
            else:
                bits = struct.unpack('>Q', struct.pack('>d', float(t)))[0]
                r.append('.lit (.float (some ⟨%d⟩))' % bits)
            continue
        if c == '"':
            j = string_end(s, i)
            r.append('.lit (.str %s)' % s[i:j])
            i = j
            continue
        if c in PUNCT:
            joint = 'true' if s[i + 1] in PUNCT else 'false'
            r.append(".punct '%s' %s" % (c if c != "'" else "\\'", joint))
            i += 1
            continue
        raise Exception(repr(s[i - 10:i + 10]))


def programs(path):
    s = strip(open(REPO + path).read())
    return [tokens(s, m.end(), CLOSE[m.group(1)])[0]
            for m in re.finditer(r'\bdecl!\s*([{(\[])', s)]


def wrap(ts, indent):
    """A list, in lines of at most 100 columns where possible."""
    lines, cur = [], indent + '['
    text = re.sub(r'"(?:[^"\\]|\\.)*"', lambda m: m.group().replace(', ', ',\0'), ', '.join(ts))
    for t in text.split(', '):
        piece = t if cur.endswith('[') else ' ' + t
        piece += ','
        if len(cur) + len(piece) > 99:
            lines.append(cur)
            cur = indent + ' ' + piece.strip()
        else:
            cur += piece
    cur = cur.rstrip(',')
    lines.append(cur + ']')
    return '\n'.join(lines).replace('\0', ' ')


TY = {'int': '.int', 'float': '.float', 'bool': '.bool'}


def ty(t):
    return TY.get(t, '(.other "%s")' % t)


def clk(c):
    if c == "'self":
        return '.implicit'
    if c == "'_":
        return '.adaptative'
    m = re.fullmatch(r"'(when|whenot) (\w+)", c)
    return '(.%s "%s")' % ('on' if m.group(1) == 'when' else 'off', m.group(2))


def ref(text):
    k, x = re.fullmatch(r'(Global|Node|Variable) `(\w+)`', text).groups()
    return '(.%s "%s")' % ({'Global': 'globalVarName', 'Node': 'funName',
                            'Variable': 'localVarName'}[k], x)


BIN = {'+': 'add', '*': 'mul', '-': 'sub', '/': 'div', '%': 'rem', 'and': 'bitAnd', 'or': 'bitOr',
       'xor': 'bitXor'}
CMP = {'=': 'eq', '<>': 'ne', '<': 'lt', '>': 'gt', '<=': 'le', '>=': 'ge'}
OPTS = {'trace': '.trace', 'export': '.exported', 'main(nb_iter)': '.main', 'main': '.main',
        'test': '.test', 'pub': '.isPub'}


def expect(text):
    if text == 'the same type':
        return '.same'
    if text.startswith('a concrete type'):
        return '.concrete'
    m = re.match(r'type ((?:int|float|bool)(?: or (?:int|float|bool))*)', text)
    return '(.among [%s])' % ', '.join(ty(t) for t in m.group(1).split(' or '))


def kind(head, rest):
    """The message, from its first line and the lines that follow; None if rustc wrote it."""
    def note(p):
        return re.search(p, rest)

    m = re.fullmatch(r'(.*) was found to be part of a dependency cycle', head)
    if m:
        also = re.findall(r'The cycle also goes through (.*)', rest)
        return '.cycle [%s]' % ', '.join(ref(x)[1:-1] for x in [m.group(1)] + also)
    for pat, f in [
        (r'(.*) depends on itself', lambda m: '.itself ' + ref(m.group(1))),
        (r'No definition provided for (.*) which is required',
         lambda m: '.undefined ' + ref(m.group(1))),
        (r'Attempt to redefine (.* `.*`), when a prior item already defines it',
         lambda m: '.redefined ' + ref(m.group(1))),
        (r'Attempt to redefine (.* `.*`), when the context already defines it',
         lambda m: '.redefinedInput ' + ref(m.group(1))),
        (r'Attempt to redefine (\w+), when a prior item already defines it',
         lambda m: '.again "%s"' % m.group(1)),
        (r'Variable (\w+) not found in the context\.', lambda m: '.varNotFound "%s"' % m.group(1)),
        (r'(\w+) is not a known function in this scope\.',
         lambda m: '.funNotFound "%s"' % m.group(1)),
        (r'Variable (\w+) is not available yet at this point of the typechecking\.',
         lambda m: '.notYet "%s"' % m.group(1)),
        (r'.* (?:is|are) not valid in const contexts', lambda m: '.notConst'),
        (r'Comparison operator .* is not associative', lambda m: '.notAssociative'),
        (r'Lustre only accepts literals of type int, float, or bool', lambda m: '.badLiteral'),
        (r'Type mismatch between the left and right sides: .*', lambda m: '.mismatch'),
        (r'Expected a scalar type, found a tuple \((.*)\)',
         lambda m: '.notScalar [%s]' % ', '.join(ty(t) for t in m.group(1).split(', '))),
        (r'Binary operator `(.*)` expects arguments of (.*)', lambda m: '.%s %s %s %s' % (
            'binop .' + BIN[m.group(1)] if m.group(1) in BIN else 'cmp .' + CMP[m.group(1)],
            expect(m.group(2)),
            ty(note(r'The left-hand-side is found to be of type (\w+)').group(1)),
            ty(note(r'The right-hand-side is found to be of type (\w+)').group(1)))),
        (r'Unary operator `(.*)` expects an argument of (.*)', lambda m: '.unop .%s %s %s' % (
            {'-': 'neg', 'not': 'not'}[m.group(1)], expect(m.group(2)),
            ty(note(r'The inner value is found to be of type (\w+)').group(1)))),
        (r'(.*) should be of type bool', lambda m: '.notBool "%s" %s' % (
            m.group(1), ty(note(r'The \w+ is found to be of type (\w+)').group(1)))),
        (r'Variable (\w+) is not positive at this depth', lambda m: '.notPositive "%s" %s %s' % (
            (m.group(1),) + note(r'reach (\d+) steps into the past, with only (\d+)').groups()[::-1])),
        (r'Cannot compute the `pre` of this expression.*', lambda m: '.shallowPre'),
        (r"This expression is too slow: expected the implicit clock 'self, found (.*)",
         lambda m: '.tooSlow ' + clk(m.group(1))),
        (r'The expression `.*` cannot be interpreted as a clock.*', lambda m: '.notAClock'),
        (r'Two subexpressions have incomparable clocks: (.*) and (.*) are incompatible',
         lambda m: '.notComparable %s %s' % (clk(m.group(1)), clk(m.group(2)))),
        (r'Two subexpressions have different clocks: (.*) and (.*) are incompatible',
         lambda m: '.notIdentical %s %s' % (clk(m.group(1)), clk(m.group(2)))),
        (r'Type variable (\w+) cannot be inferred from the inputs of this node',
         lambda m: '.unusedGeneric "%s"' % m.group(1)),
        (r'Type variable (\w+) was not declared', lambda m: '.undeclaredGeneric "%s"' % m.group(1)),
        (r'Cannot satisfy constraint (\w+) = (\w+) introduced here...',
         lambda m: '.unsatisfied "%s" %s %s' % (
             m.group(1), ty(note(r'already enforces \w+ = (\w+)').group(1)), ty(m.group(2)))),
        (r'Node has an incompatible signature to be marked as executable.*',
         lambda m: '.signature %s %s' % (
             'true' if note('Inputs should be') else 'false',
             'true' if note('Outputs should be') else 'false')),
        (r'Malformed attribute (\w+): .*', lambda m: '.malformed "%s"' % m.group(1)),
        (r'Attribute #\[(.*)\] is not applicable to (\w+)', lambda m: '.inapplicable %s .%s' % (
            OPTS[m.group(1)], m.group(2).lower())),
        (r'#\[(\w+)\] is already set by a previous attribute',
         lambda m: '.duplicate ' + OPTS[m.group(1)]),
        (r'expected identifier, found keyword.*|unexpected end of input.*|expected `=`',
         lambda m: '.syntaxError'),
    ]:
        m = re.fullmatch(pat, head)
        if m:
            return f(m)
    raise Exception('unknown message: ' + head)


def messages(path):
    text = open(REPO + path).read()
    r = []
    for part in re.split(r'^(?=error)', text, flags=re.M)[1:]:
        first, _, rest = part.partition('\n')
        if first.startswith('error['):
            continue
        head = first[len('error: '):]
        while not re.match(r' *-->', rest):
            line, _, rest = rest.partition('\n')
            head += ' ' + line.strip()
        if re.search(r'never used|unused variable', head):
            continue
        r.append(kind(head, rest))
    return r


def files(under):
    for d, _, fs in sorted(os.walk(REPO + TESTS + under)):
        for f in sorted(fs):
            if f.endswith('.rs'):
                yield os.path.join(d, f)[len(REPO):]


HEAD = '''import Verif.Tests.Kinds

/-!
# %s

Written by `tools/conformance.py`: do not edit.
-/

set_option autoImplicit false
set_option maxRecDepth 100000

namespace Chandeliers.Tests
open San Syn Err

'''


def tokens_of(path):
    return '[\n' + ',\n'.join(wrap(p, '    ') for p in programs(path)) + ']'


def write(name, title, examples):
    with open(OUT + name + '.lean', 'w') as f:
        f.write(HEAD % title + '\n'.join(examples) + '\nend Chandeliers.Tests\n')
    print(name, len(examples))


def example(path, before, after):
    return '/-- %s -/\nexample : %s%s%s := by\n  decide +kernel\n' % (
        path, before, tokens_of(path), after)


def drivers(path):
    s = strip(open(REPO + path).read())
    return len(re.findall(r'#\[(?:main|test)(?:\(\d+\))?\]', s))


refused, accepted, runs = [], [], []
for path in list(files('compile_fail')) + list(files('warn')):
    expected = messages(path[:-3] + '.stderr')
    if expected:
        refused.append(example(path, 'messages ', ' =\n    [%s]' % ',\n     '.join(expected)))
    elif programs(path):
        accepted.append(example(path, 'accepted ', ' = true'))
for path in files('pass'):
    if programs(path):
        accepted.append(example(path, 'accepted ', ' = true'))
        k = drivers(path)
        if k:
            runs.append(example(path, 'runs ', ' = [%s]' % ', '.join(['true'] * k)))
write('Refused', 'Tests that must be refused, with the messages of the project', refused)
write('Accepted', 'Tests that the macro must accept', accepted)
write('Runs', 'Tests that must run without a panic', runs)
