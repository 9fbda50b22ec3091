#!/usr/bin/env python3
"""Translate the unit tests of ethabi/src into Lean examples about the model.

Usage: rust_tests.py [/repo] [/verif/lean/Verif/Tests]

A small interpreter runs each #[test] function; every assertion about a modelled function becomes one
`example ... := by decide +kernel`.  Tests that need Keccak-256 are left out (the hash is a parameter of the
model), and so is anything the interpreter does not understand; both are listed on stderr.
"""
import json
import re
import sys

REPO = sys.argv[1] if len(sys.argv) > 1 else '/repo'
OUT = sys.argv[2] if len(sys.argv) > 2 else '/verif/lean/Verif/Tests'

LEX = re.compile(r'''
  (?P<ws>\s+|//[^\n]*)
 |(?P<raw>r\#"(?:.|\n)*?"\#)
 |(?P<str>"(?:\\.|[^"\\])*")
 |(?P<char>'(?:\\.|[^'\\])')
 |(?P<num>0x[0-9a-fA-F_]+(?:u8|u32|u64)?|\d[\d_]*(?:u8|u32|u64)?)
 |(?P<id>[A-Za-z_]\w*)
 |(?P<op>::|->|=>|==|&&|\.\.|[{}()\[\];,.:=&!<>\#?|+*/-]|')
''', re.X)


class Skip(Exception):
    pass


def lex(src):
    out, i = [], 0
    while i < len(src):
        m = LEX.match(src, i)
        if not m:
            raise Skip('lex ' + src[i:i + 20])
        if m.lastgroup != 'ws':
            out.append((m.lastgroup, m.group()))
        i = m.end()
    return out


def unescape(s):
    return s[1:-1].replace('\\"', '"').replace('\\n', '\n').replace('\\\\', '\\')


class Ty:
    """ParamType value"""
    def __init__(self, lean):
        self.lean = lean


class Tok(Ty):
    pass


class Lean:
    """a model expression: `res` says whether it is a `Res`"""
    def __init__(self, lean, res, kind):
        self.lean, self.res, self.kind = lean, res, kind


class Rec:
    def __init__(self, name, fields):
        self.name, self.fields = name, fields


class ByteList(list):
    pass


def low(n):
    return n[0].lower() + n[1:]


def lean_str(s):
    # kernel evaluation of `String.toList` is quadratic, so long texts are given in pieces
    pieces = [s[i:i + 16] for i in range(0, len(s), 16)] if len(s) > 40 else [s]
    return ' ++ '.join('lit ' + json.dumps(p, ensure_ascii=False) for p in pieces)


def hx(b):
    b = bytes(b)
    words = [b[i:i + 32].hex() for i in range(0, len(b), 32)]
    if not words:
        return '([] : Bytes)'
    return '(hx %d [' % len(b) + ',\n      '.join('0x%s' % w for w in words) + '])'


def lean(v):
    if isinstance(v, (Ty, Lean)):
        return v.lean
    if isinstance(v, bool):
        return 'true' if v else 'false'
    if isinstance(v, int):
        return str(v)
    if isinstance(v, str):
        return '(' + lean_str(v) + ')'
    if isinstance(v, ByteList):
        return hx(v)
    if isinstance(v, list):
        return '[' + ', '.join(lean(x) for x in v) + ']'
    if v is None:
        return 'none'
    if isinstance(v, tuple) and v[0] == 'some':
        return '(some %s)' % lean(v[1])
    if isinstance(v, Rec):
        return rec(v)
    raise Skip('value %r' % (v,))


FIELDS = {
    'Param': [('name', 'name'), ('kind', 'kind'), ('internal_type', 'internalType')],
    'TupleParam': [('name', 'name'), ('kind', 'kind'), ('internal_type', 'internalType')],
    'EventParam': [('name', 'name'), ('kind', 'kind'), ('indexed', 'indexed')],
    'Event': [('name', 'name'), ('inputs', 'inputs'), ('anonymous', 'anonymous')],
    'Function': [('name', 'name'), ('inputs', 'inputs'), ('outputs', 'outputs'), ('constant', 'constant'),
                 ('state_mutability', 'stateMutability')],
    'Constructor': [('inputs', 'inputs')],
    'Contract': [('constructor', 'constructor'), ('functions', 'functions'), ('events', 'events'),
                 ('receive', 'receive'), ('fallback', 'fallback')],
}


def rec(v):
    fs = []
    for r, l in FIELDS[v.name]:
        x = v.fields[r]
        fs.append('%s := %s' % (l, lean(x)))
    return '({ ' + ', '.join(fs) + ' } : %s)' % v.name


def lean_json(j):
    if isinstance(j, list) and j and isinstance(j[0], tuple) or isinstance(j, Obj):
        return '.obj [' + ', '.join('(%s, %s)' % (lean_str(k), lean_json(x)) for k, x in j) + ']'
    if isinstance(j, list):
        return '.arr [' + ', '.join(lean_json(x) for x in j) + ']'
    if isinstance(j, bool):
        return '.bool ' + ('true' if j else 'false')
    if isinstance(j, str):
        return '.str (%s)' % lean_str(j)
    if j is None:
        return '.null'
    raise Skip('json %r' % (j,))


class Obj(list):
    pass


def parse_json(s):
    return '(' + lean_json(json.loads(s, object_pairs_hook=Obj)) + ' : Json)'


DE = {'Param': 'deParam .direct', 'TupleParam': 'deTupleParam .direct', 'EventParam': 'deEventParam .direct',
      'Operation': 'deOperation', 'Contract': 'deContract'}
SER = {'Param': 'serParam', 'TupleParam': 'serTupleParam', 'EventParam': 'serEventParam',
       'Operation': 'serOperation', 'Contract': 'serContract'}


class Interp:
    def __init__(self, toks, env):
        self.t, self.i, self.env = toks, 0, env
        self.out = []

    def peek(self, k=0):
        return self.t[self.i + k][1] if self.i + k < len(self.t) else None

    def kind(self):
        return self.t[self.i][0]

    def next(self):
        v = self.t[self.i]
        self.i += 1
        return v

    def eat(self, s):
        if self.peek() != s:
            raise Skip('expected %s got %s' % (s, self.peek()))
        self.i += 1

    def skip_group(self):
        """skip a balanced group starting at the current opening bracket"""
        d = 0
        while True:
            _, s = self.next()
            d += s in '([{' and len(s) == 1
            d -= s in ')]}' and len(s) == 1
            if d == 0:
                return

    # ---- statements
    def block(self):
        """runs until the closing brace; returns the value of the last expression"""
        val = None
        while self.peek() not in (None, '}'):
            p = self.peek()
            if p == '#':
                self.next()
                self.skip_group()
            elif p == 'use':
                while self.next()[1] != ';':
                    pass
            elif p == 'fn':
                name = self.t[self.i + 1][1]
                while self.peek() != '{':
                    self.next()
                start = self.i
                self.skip_group()
                self.env[name] = ('fn', self.t[start:self.i])
            elif p == 'let':
                self.next()
                if self.peek() == 'mut':
                    self.next()
                name = self.next()[1]
                ty = None
                if self.peek() == ':':
                    self.next()
                    ty = []
                    while self.peek() != '=':
                        ty.append(self.next()[1])
                    ty = ''.join(ty)
                self.eat('=')
                self.want = ty
                self.env[name] = self.expr()
                self.want = None
                self.eat(';')
            elif self.kind() == 'id' and self.peek(1) == '[' and p in self.env:
                name = self.next()[1]
                self.eat('[')
                k = self.expr()
                self.eat(']')
                self.eat('=')
                self.env[name] = ByteList(self.env[name])
                self.env[name][k] = self.expr()
                self.eat(';')
            else:
                val = self.expr()
                if self.peek() == ';':
                    self.next()
                    val = None
        return val

    # ---- expressions
    def args(self, close):
        out = []
        while self.peek() != close:
            out.append(self.expr())
            if self.peek() == ',':
                self.next()
            elif self.peek() == ';':
                self.next()
                n = self.expr()
                out = ByteList(out * n)
        self.eat(close)
        return out

    def expr(self):
        v = self.unary()
        while self.peek() in ('.', '?', '['):
            if self.peek() == '[':
                self.next()
                v = self.index(v, self.args(']')[0])
                continue
            self.next()
            m = self.next()[1]
            self.eat('(')
            v = self.method(v, m, self.args(')'))
        return v

    def unary(self):
        p = self.peek()
        if p == '&':
            self.next()
            return self.unary_chain()
        if p == '!':
            self.next()
            v = self.expr()
            return ('not', v)
        return self.primary()

    def unary_chain(self):
        return self.primary()

    def primary(self):
        k, s = self.next()
        if k == 'raw':
            return s[3:-2]
        if k == 'str':
            return unescape(s)
        if k == 'num':
            return int(re.sub('(u8|u32|u64)$', '', s).replace('_', ''), 0)
        if s == '(':
            v = self.args(')')
            return v[0] if len(v) == 1 else ('pair', v)
        if s == '[':
            return self.args(']')
        if s == '{':
            v = self.block()
            self.eat('}')
            return v
        if k != 'id':
            raise Skip('primary ' + s)
        path = [s]
        while self.peek() == '::':
            self.next()
            if self.peek() == '<':
                while self.next()[1] != '>':
                    pass
                continue
            path.append(self.next()[1])
        if self.peek() == '!':
            self.next()
            o = self.next()[1]
            return self.macro(path[-1], self.args({'(': ')', '[': ']'}[o]))
        if self.peek() == '{' and path[-1][0].isupper() and path[-1] in FIELDS:
            self.next()
            fs = {}
            while self.peek() != '}':
                n = self.next()[1]
                self.eat(':')
                fs[n] = self.expr()
                if self.peek() == ',':
                    self.next()
            self.eat('}')
            return Rec(path[-1], fs)
        if self.peek() == '(':
            self.next()
            return self.call(path, self.args(')'))
        return self.name(path)

    def name(self, path):
        n = path[-1]
        if n in ('true', 'false'):
            return n == 'true'
        if n == 'None':
            return None
        if len(path) == 1 and n in self.env and not isinstance(self.env[n], tuple):
            return self.env[n]
        if n in ('Address', 'Bytes', 'Bool', 'String'):
            return Ty('.' + low(n))
        if path[0] == 'StateMutability' or path[-2:-1] == ['StateMutability']:
            return Ty('.' + low(n))
        raise Skip('name ' + '::'.join(path))

    def macro(self, n, a):
        if n == 'vec':
            return ByteList(a) if a and all(type(x) is int for x in a) else a
        if n == 'hex':
            return ByteList(bytes.fromhex(re.sub(r'\s', '', a[0])))
        if n == 'format':
            if a[0] == '{}' and isinstance(a[1], Ty):
                return Lean('write %s' % paren(a[1].lean), False, 'text')
            raise Skip('format')
        if n == 'assert_eq':
            self.assert_eq(a[0], a[1])
            return None
        if n == 'assert':
            self.assert_(a[0])
            return None
        raise Skip('macro ' + n)

    def typ(self, v):
        return v

    def call(self, path, a):
        n = path[-1]
        ctx = path[-2] if len(path) > 1 else None
        if n == 'new' and ctx == 'Box':
            return a[0]
        if n == 'new' and ctx == 'HashMap':
            return []
        if n == 'from_iter':
            return [MapEntry(p[1][0], p[1][1]) for p in a[0]]
        if n == 'default':
            return Ty('.nonPayable')
        if n == 'from' and ctx in ('Uint', 'String'):
            return a[0]
        if n == 'Some':
            return ('some', a[0])
        if n == 'encode' and ctx is None:
            return Lean('encode .debug %s' % lean(a[0]), True, 'bytes')
        if n == 'decode' and ctx is None:
            d = a[1] if a[1] else ByteList()
            return Lean('decode .debug %s %s' % (lean(a[0]), lean(ByteList(d))), True, 'tokens')
        if n == 'read' and ctx == 'Reader':
            return Lean('read %s' % lean(a[0]), True, 'type')
        if n == 'write' and ctx == 'Writer':
            return Lean('write %s' % paren(lean(a[0])), False, 'text')
        if n == 'write_for_abi':
            return Lean('writeForAbi %s %s' % (lean(a[1]), paren(lean(a[0]))), False, 'text')
        if n == 'tokenize':
            return Lean('tokenize %s %s %s' % ('.strict' if ctx.startswith('Strict') else '.lenient',
                                               paren(lean(a[0])), lean(a[1])), True, 'token')
        if n == 'tokenize_array':
            t = '.strict' if ctx.startswith('Strict') else '.lenient'
            return Lean('tokenizeArray %s (tokenize %s %s)' % (lean(a[0]), t, paren(lean(a[1]))), True, 'tokens')
        if n == 'types_check':
            return Lean('Token.typesCheck %s %s' % (lean(a[0]), lean(a[1])), True, 'boolres')
        if n == 'pad_u32':
            return Lean('padU32 %d' % a[0], False, 'word')
        if n == 'from_str':
            if self.want in DE:
                return Lean('%s %s' % (DE[self.want], parse_json(a[0])), True, self.want)
            raise Skip('from_str ' + str(self.want))
        if n == 'to_string' and ctx == 'serde_json':
            return Lean('%s %s' % (SER[a[0].kind], a[0].lean), False, 'json')
        if n == 'assert_json_eq':
            raise Skip(n)
        if n == 'assert_ser_de':
            v = a[0]
            if v.kind not in SER:
                raise Skip('ser ' + str(v.kind))
            de = DE[v.kind]
            self.out.append('(%s).bind (fun x => %s (%s x)) = %s' % (v.lean, de, SER[v.kind], v.lean))
            return None
        if n in self.env and isinstance(self.env[n], tuple) and self.env[n][0] == 'fn':
            if n == 'assert_type_check':
                self.out.append('Token.typesCheck %s %s = .ok true' % (lean(a[0]), lean(a[1])))
                return None
            if n == 'assert_not_type_check':
                self.out.append('Token.typesCheck %s %s = .ok false' % (lean(a[0]), lean(a[1])))
                return None
            if n.startswith('test_sanitize'):
                self.out.append('sanitizeName %s = %s' % (lean(a[0]), lean(a[1])))
                return None
            raise Skip('fn ' + n)
        if n in ('Function', 'Event', 'Constructor') and ctx == 'Operation':
            return Ty('(Operation.%s %s)' % (low(n), lean(a[0])))
        if n in ('Address', 'FixedBytes', 'Bytes', 'Int', 'Uint', 'Bool', 'String', 'FixedArray', 'Array', 'Tuple'):
            return self.ctor(n, a)
        raise Skip('call ' + '::'.join(path))

    def ctor(self, n, a):
        x = a[0]
        if n in ('FixedArray', 'Array') and isinstance(x, Ty) and not isinstance(x, Tok):
            return Ty('(.%s %s)' % (low(n), ' '.join(lean(y) for y in a)))
        if n in ('Int', 'Uint'):
            if isinstance(x, Conv) or isinstance(x, ByteList):
                v = int.from_bytes(bytes(x), 'big') if isinstance(x, ByteList) else x.v
                return Tok('(.%s 0x%x#256)' % (low(n), v))
            return Ambig('(.%s 0x%x#256)' % (low(n), x), '(.%s %d)' % (low(n), x))
        if n == 'FixedBytes' and type(x) is int:
            return Ty('(.fixedBytes %d)' % x)
        if n == 'Tuple':
            toks = [y for y in x if isinstance(y, Tok)]
            if toks:
                return Tok('(.tuple %s)' % lean([y.tok() if isinstance(y, Ambig) else y for y in x]))
            return Ty('(.tuple %s)' % lean(x))
        if n == 'Address':
            return Tok('(.address (addr %s))' % hx(x))
        if n in ('FixedBytes', 'Bytes'):
            return Tok('(.%s %s)' % (low(n), hx(x)))
        return Tok('(.%s %s)' % (low(n), lean(x)))

    def method(self, v, m, a):
        if m in ('to_vec', 'clone', 'to_owned', 'to_string', 'as_str', 'unwrap') and not isinstance(v, Lean):
            return v
        if m == 'into':
            return Conv(v) if type(v) is int else v
        if m == 'parse':
            return ByteList(bytes.fromhex(v))
        if isinstance(v, Lean):
            if isinstance(v, SerOf):
                return v
            if m == 'unwrap':
                return Lean(v.lean, v.res, v.kind) if not v.res else Unwrapped(v)
            if m in ('as_str', 'to_vec', 'clone'):
                return v
            if m == 'is_err':
                return ('iserr', v)
            if m == 'is_ok':
                return ('isok', v)
        if m == 'is_dynamic':
            c = 'Token' if isinstance(v, Tok) else 'ParamType'
            if isinstance(v, Ambig):
                v = Tok(v.tok().lean) if self.file == 'Token' else Ty(v.alt)
                c = 'Token' if self.file == 'Token' else 'ParamType'
            return Lean('%s.isDynamic %s' % (c, paren(v.lean)), False, 'bool')
        if m == 'decode_input':
            return Lean('Function.decodeInput .debug %s %s' % (lean(v), lean(a[0])), True, 'tokens')
        raise Skip('method ' + m)

    def index(self, v, k):
        if isinstance(v, Lean) and v.kind == 'word':
            return Lean('(%s).1[%d]?' % (v.lean, k), False, 'optbyte')
        raise Skip('index')

    def assert_eq(self, x, y):
        if not isinstance(x, Lean):
            x, y = y, x
        if not isinstance(x, Lean):
            raise Skip('assert_eq')
        if x.kind == 'optbyte':
            self.out.append('%s = some %d' % (x.lean, y))
            return
        r = lean(y)
        if isinstance(y, list) and x.kind == 'bytes':
            r = lean(ByteList(y))
        self.out.append('%s = %s' % (x.lean, '.ok ' + paren(r) if x.res else r))

    def assert_(self, v):
        neg = False
        while isinstance(v, tuple) and v[0] == 'not':
            neg, v = not neg, v[1]
        if isinstance(v, tuple) and v[0] in ('iserr', 'isok'):
            self.out.append('%s (%s) = true' % ('isErr' if (v[0] == 'iserr') != neg else 'isOk', v[1].lean))
        elif isinstance(v, Lean) and v.kind == 'bool':
            self.out.append('%s = %s' % (v.lean, 'false' if neg else 'true'))
        else:
            raise Skip('assert')


class Conv:
    def __init__(self, v):
        self.v = v


class Ambig(Ty):
    """`Uint(256)` inside `use ParamType::*`: a type (tokens of this shape always use `.into()`)"""
    def __init__(self, tok, alt):
        self.lean, self.tk, self.alt = alt, tok, alt

    def tok(self):
        return Tok(self.tk)


class MapEntry(Ty):
    def __init__(self, k, v):
        self.lean = '(%s, %s)' % (lean_str(k), lean(v))


class Unwrapped(Lean):
    def __init__(self, v):
        self.lean, self.res, self.kind = v.lean, True, v.kind


def paren(s):
    s = s.strip()
    if s.startswith('(') and s.endswith(')') or ' ' not in s:
        return s
    return '(' + s + ')'


# `serde_json::to_string(&deserialized)` gets an unwrapped value: serialise what the model returned.
_old_call = Interp.call


def call(self, path, a):
    n = path[-1]
    if n == 'to_string' and len(path) > 1 and path[-2] == 'serde_json':
        if not isinstance(a[0], Lean) or a[0].kind not in SER:
            raise Skip('to_string')
        return SerOf(a[0])
    if n == 'assert_json_eq':
        s, v = a
        if not isinstance(v, SerOf):
            raise Skip('assert_json_eq')
        self.out.append('(%s).bind (fun x => Res.ok (sameJson (%s x) %s)) = .ok true' % (
            v.of.lean, SER[v.of.kind], parse_json(s)))
        return None
    return _old_call(self, path, a)


class SerOf(Lean):
    def __init__(self, of):
        self.of, self.res, self.kind, self.lean = of, False, 'ser', ''


Interp.call = call

FILES = [
    ('Encoder', ['encoder.rs'], ['Encoder']),
    ('Decoder', ['decoder.rs'], ['Decoder', 'Function']),
    ('Token', ['token/token.rs'], ['Types']),
    ('Types', ['param_type/param_type.rs', 'param_type/reader.rs', 'param_type/writer.rs'],
     ['Types', 'Reader', 'Writer']),
    ('Tokenizer', ['token/strict.rs', 'token/mod.rs'], ['Tokenizer']),
    ('Json', ['param.rs', 'tuple_param.rs', 'event_param.rs', 'operation.rs'], ['Json', 'Contract']),
    ('Contract', ['contract.rs'], ['Contract']),
]


def main():
    total = 0
    for mod, srcs, models in FILES:
        lines = ['import Verif.Tests.Helpers'] + ['import Verif.Model.%s' % m for m in models]
        lines += ['/-!', '# Tests: unit tests of the Rust code run on the model', '',
                  'Generated by tools/rust_tests.py from ' + ', '.join('ethabi/src/' + s for s in srcs) + '.',
                  'These are tests of the model (finitely many inputs), not proofs of any property.', '-/',
                  'namespace Ethabi.Tests', '']
        for src in srcs:
            text = open('%s/ethabi/src/%s' % (REPO, src)).read()
            at = text.index('#[cfg(test)]')
            lines_before = text[:at].count('\n')
            for m in re.finditer(r'#\[test\]\s*fn (\w+)\(\) \{\n', text):
                name = m.group(1)
                end = text.index('\n\t}\n', m.end())
                first = text[:m.start()].count('\n') + 1
                last = text[:end].count('\n') + 2
                it = Interp(lex(text[m.end():end]), {})
                it.file, it.want = mod, None
                try:
                    it.block()
                except Skip as e:
                    print('%s %s: skipped (%s)' % (src, name, e), file=sys.stderr)
                    if not it.out:
                        continue
                if not it.out:
                    continue
                lines.append('/-! %s:%d-%d `%s` -/' % (src, first, last, name))
                for o in it.out:
                    lines.append('example : %s := by decide +kernel' % o)
                    total += 1
                lines.append('')
        lines.append('end Ethabi.Tests')
        open('%s/%s.lean' % (OUT, mod), 'w').write('\n'.join(lines) + '\n')
    print(total, 'examples', file=sys.stderr)


main()


def cli():
    """cli/src/main.rs: each command line becomes a call of the model's command"""
    text = open(REPO + '/cli/src/main.rs').read()
    lines = ['import Verif.Tests.Helpers', 'import Verif.Tests.Keccak', 'import Verif.Model.Cli', '/-!',
             '# Tests: unit tests of the command line tool run on the model', '',
             'Generated by tools/rust_tests.py from cli/src/main.rs, with the ABI files of res/ as JSON values.',
             'These are tests of the model (finitely many inputs), not proofs of any property.', '-/',
             'namespace Ethabi.Tests', '']
    abis = {}
    total = 0

    def abi(path):
        name = path.split('/')[-1].split('.')[0]
        if name not in abis:
            abis[name] = parse_json(open('%s/res/%s.abi' % (REPO, name)).read())
        return name + 'Abi'

    def strs(l):
        return '[' + ', '.join(lean_str(x) for x in l) + ']'

    def command(c):
        w = c.split(' ')[1:]
        lenient = '--lenient' in w
        w = [x for x in w if x != '--lenient']
        flag = 'true' if lenient else 'false'
        sub, w = w[:2], w[2:]
        if sub == ['encode', 'params']:
            ps = [x for x in w if x != '-v']
            return 'cliEncodeParams .debug %s %s' % (strs(ps), flag)
        if sub == ['encode', 'function']:
            i = w.index('-p')
            return 'cliEncodeInput keccak256 .debug %s (%s) %s %s' % (abi(w[0]), lean_str(w[1]), strs(w[i + 1:]), flag)
        if sub == ['decode', 'params']:
            ts = [w[i + 1] for i in range(0, len(w) - 1, 2)]
            return 'cliDecodeParams .debug %s (%s)' % (strs(ts), lean_str(w[-1]))
        if sub == ['decode', 'function']:
            return 'cliDecodeOutput .debug %s (%s) (%s)' % (abi(w[0]), lean_str(w[1]), lean_str(w[2]))
        if sub == ['decode', 'log']:
            tops = [x for x in w[2:-1] if x != '-l']
            return 'cliDecodeLog keccak256 parseHash .debug %s (%s) %s (%s)' % (
                abi(w[0]), lean_str(w[1]), strs(tops), lean_str(w[-1]))
        raise Skip(c)

    body = []
    for m in re.finditer(r'#\[test\]\s*fn (\w+)\(\) \{\n', text):
        end = text.index('\n\t}\n', m.end())
        first, last = text[:m.start()].count('\n') + 1, text[:end].count('\n') + 2
        body.append('/-! cli/src/main.rs:%d-%d `%s` -/' % (first, last, m.group(1)))
        cmd = exp = None
        for st in re.split(r';\n', text[m.end():end] + '\n'):
            lit_ = re.search(r'"((?:[^"\\]|\\(?:.|\n))*)"', st)
            if 'let command' in st:
                cmd = lit_.group(1)
            elif 'let expected' in st:
                exp = re.sub(r'\\\n\s*', '', lit_.group(1))
            elif 'is_err()' in st or 'unwrap_err().to_string' in st:
                body.append('example : isErr (%s) = true := by decide +kernel' % command(cmd))
                total += 1
            elif 'assert_eq!(execute' in st:
                body.append('example : %s = .ok (%s) := by decide +kernel' % (command(cmd), lean_str(exp)))
                total += 1
        body.append('')
    for n, j in abis.items():
        lines += ['/-- res/%s.abi -/' % n, 'def %sAbi : Json := %s' % (n, j), '']
    lines += body + ['end Ethabi.Tests']
    open(OUT + '/Cli.lean', 'w').write('\n'.join(lines) + '\n')
    print(total, 'command line examples', file=sys.stderr)


cli()


def codec():
    """ethabi/src/tests.rs: `test_encode_decode!` blocks, one encode and one decode example each"""
    text = open(REPO + '/ethabi/src/tests.rs').read()
    lines = ['import Verif.Tests.Helpers', 'import Verif.Model.Encoder', 'import Verif.Model.Decoder', '/-!',
             '# Tests: encode/decode vectors of the Rust code run on the model', '',
             'Generated by tools/rust_tests.py from ethabi/src/tests.rs.',
             'These are tests of the model (finitely many inputs), not proofs of any property.', '-/',
             'namespace Ethabi.Tests', '']
    total = 0
    for m in re.finditer(r'^test_encode_decode! \{\n', text, re.M):
        end = text.index('\n}\n', m.end())
        it = Interp(lex(text[m.end():end]), {})
        it.file, it.want = 'Codec', None
        f = {}
        try:
            it.eat('name')
            it.eat(':')
            f['name'] = it.next()[1]
            for k in ('types', 'tokens', 'data'):
                it.eat(',')
                it.eat(k)
                it.eat(':')
                f[k] = it.expr()
        except Skip as e:
            print('tests.rs %s: skipped (%s)' % (f.get('name'), e), file=sys.stderr)
            continue
        data = hx(bytes.fromhex(re.sub(r'\s', '', f['data'])))
        lines.append('/-! tests.rs:%d-%d `encode_%s`, `decode_%s` -/' % (
            text[:m.start()].count('\n') + 1, text[:end].count('\n') + 2, f['name'], f['name']))
        lines.append('example : encode .debug %s = .ok %s := by decide +kernel' % (lean(f['tokens']), data))
        lines.append('example : decode .debug %s %s = .ok %s := by decide +kernel' % (
            lean(f['types']), data, lean(f['tokens'])))
        lines.append('')
        total += 2
    lines.append('end Ethabi.Tests')
    open(OUT + '/Codec.lean', 'w').write('\n'.join(lines) + '\n')
    print(total, 'codec examples', file=sys.stderr)


codec()
