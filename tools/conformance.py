#!/usr/bin/env python3
"""Translate the integration tests of the repository (xsd/tests/*.rs) to Lean.

For each test: the schema files, the document and the expected value, as terms of the model. The result is
written to lean/Verif/Conformance/. Run as: python3 tools/conformance.py /repo
"""
import os, re, sys
import xml.parsers.expat as expat

repo = sys.argv[1]
here = os.path.dirname(os.path.abspath(__file__))
out = os.path.join(here, '..', 'lean', 'Verif', 'Conformance')
tests = os.path.join(repo, 'xsd', 'tests')


def s(v):
    return 'c!"%s"' % v.replace('\\', '\\\\').replace('"', '\\"').replace('\n', '\\n').replace('\t', '\\t')


def opt(v):
    return 'none' if v is None else '(some %s)' % s(v)


class Tree:
    """The document as roxmltree shows it, with byte positions."""

    def __init__(self, data):
        self.data = data
        self.stack = [dict(kids=[], scope={})]
        p = expat.ParserCreate()
        p.ordered_attributes = True
        p.buffer_text = True
        self.p = p
        p.StartElementHandler = self.start
        p.EndElementHandler = self.end
        p.CharacterDataHandler = self.text
        p.CommentHandler = lambda _: self.stack[-1]['kids'].append(('other',))
        p.Parse(data, True)
        self.root = [k for k in self.stack[0]['kids'] if k[0] == 'elem'][0]

    def qname(self, n, scope, attr=False):
        if ':' in n:
            pre, loc = n.split(':', 1)
            return loc, (scope.get(pre) if pre != 'xml' else 'http://www.w3.org/XML/1998/namespace')
        return n, (None if attr else scope.get(None))

    def start(self, name, attrs):
        scope = dict(self.stack[-1]['scope'])
        pairs = list(zip(attrs[::2], attrs[1::2]))
        for k, v in pairs:
            if k == 'xmlns':
                scope[None] = v
            elif k.startswith('xmlns:'):
                scope[k[6:]] = v
        plain = [(k, v) for k, v in pairs if k != 'xmlns' and not k.startswith('xmlns:')]
        nss = [(k, v) for k, v in pairs if k == 'xmlns' or k.startswith('xmlns:')]
        at, pos = {}, self.p.CurrentByteIndex
        i = pos + 1 + len(name.encode())
        while True:
            m = re.compile(rb'\s+([^\s=/>]+)\s*=\s*("[^"]*"|\'[^\']*\')').match(self.data, i)
            if not m:
                break
            at[m.group(1).decode()] = m.start(1)
            i = m.end()
        nested = {k: v for k, v in [(None if k == 'xmlns' else k[6:], v) for k, v in nss]}
        nested.update({k: v for k, v in self.stack[-1]['scope'].items() if k not in nested})
        self.stack.append(dict(kids=[], scope=nested, name=name, attrs=plain, nss=nss, start=pos, at=at))

    def end(self, name):
        e = self.stack.pop()
        self.stack[-1]['kids'].append(('elem', e))

    def text(self, t):
        kids = self.stack[-1]['kids']
        if kids and kids[-1][0] == 'text':
            kids[-1] = ('text', kids[-1][1] + t)
        elif len(self.stack) > 1:
            kids.append(('text', t))

    def info(self, e):
        scope = e['scope']
        loc, ns = self.qname(e['name'], scope)
        attrs = []
        for k, v in e['attrs']:
            al, an = self.qname(k, scope, True)
            attrs.append('⟨%s, %s, %s, %d⟩' % (s(al), opt(an), s(v), e['at'][k]))
        nss = ['(%s, %s)' % (opt(k), s(v)) for k, v in scope.items()]
        return '⟨⟨%s, %s⟩, [%s], [%s], %d⟩' % (s(loc), opt(ns), ', '.join(attrs), ', '.join(nss), e['start'])

    def node(self, k, ind):
        if k[0] == 'text':
            return '.text ' + s(k[1])
        if k[0] == 'other':
            return '.other'
        e = k[1]
        kids = [self.node(c, ind + '  ') for c in e['kids']]
        return '.elem %s\n%s[%s]' % (self.info(e), ind + '  ', (',\n%s ' % (ind + '  ')).join(kids))

    def elem(self):
        e = self.root[1]
        kids = [self.node(c, '   ') for c in e['kids']]
        return '(%s,\n  [%s])' % (self.info(e), ',\n   '.join(kids))

    def events(self):
        res = []

        def go(k, mixed):
            if k[0] == 'text':
                if not (mixed and k[1].strip() == ''):
                    res.append('.chars ' + s(k[1]))
                return
            if k[0] == 'other':
                return
            e = k[1]
            attrs = ['(%s, %s)' % (s(a), s(v)) for a, v in e['attrs']]
            nss = ['(%s, %s)' % (s('' if a == 'xmlns' else a[6:]), s(v)) for a, v in e['nss']]
            res.append('.start %s [%s] [%s]' % (s(e['name']), ', '.join(attrs), ', '.join(nss)))
            for c in e['kids']:
                go(c, any(d[0] == 'elem' for d in e['kids']))
            res.append('.fin')

        go(self.root, False)
        return '[%s]' % ',\n   '.join(res)


TOK = re.compile(r'\s*("(?:[^"\\]|\\.)*"|-?\d+\.\d+|-?\d+|[A-Za-z_][A-Za-z_0-9]*!?|::|[{}()\[\],:.;])')


class Rust:
    """A value written as a Rust expression."""

    def __init__(self, text):
        self.toks = TOK.findall(text)
        self.i = 0

    def peek(self):
        return self.toks[self.i] if self.i < len(self.toks) else None

    def take(self, t=None):
        r = self.toks[self.i]
        assert t is None or r == t, (r, t, self.toks[self.i - 5:self.i + 5])
        self.i += 1
        return r

    def many(self, close, item):
        res = []
        while self.peek() != close:
            res.append(item())
            if self.peek() == ',':
                self.take()
        self.take(close)
        return res

    def field(self):
        n = self.take()
        self.take(':')
        return '(%s, %s)' % (s(n), self.value())

    def value(self):
        t = self.take()
        if t.startswith('"'):
            for u in ['.', 'to_string', '(', ')']:
                self.take(u)
            return '.str ' + s(t[1:-1])
        if re.fullmatch(r'-?\d+', t):
            return '.int ' + t
        if re.fullmatch(r'-?\d+\.\d+', t):
            a, b = t.split('.')
            assert len(b) == 1
            return '.flt %d' % (int(a) * 10 + int(b))
        if t in ('true', 'false'):
            return '.bool ' + t
        if t == '(':
            self.take(')')
            return '.unit'
        if t == 'None':
            return '.none'
        if t == 'Some':
            self.take('(')
            v = self.value()
            self.take(')')
            return '.some (%s)' % v
        if t == 'vec!':
            self.take('[')
            return '.vec [%s]' % ', '.join(self.many(']', self.value))
        if t == 'String':
            for u in ['::', 'new', '(', ')']:
                self.take(u)
            return '.str []'
        assert t == 'schema', t
        path = []
        while self.peek() == '::':
            self.take()
            path.append(self.take())
        self.last = path[0]
        if self.peek() == '{':
            self.take()
            fields = self.many('}', self.field)
            self.last = path[0]
            return '.struct [%s]' % ', '.join(fields)
        if self.peek() == '(':
            self.take()
            v = self.value()
            self.take(')')
            self.last = path[0]
            return '.newtype (%s)' % v if len(path) == 1 else '.variant %s (%s)' % (s(path[1]), v)
        return '.enumv ' + s(path[1])


def schema_files(name):
    """The schema and everything it includes."""
    res, todo = {}, [name]
    while todo:
        n = todo.pop()
        if n in res:
            continue
        data = open(os.path.join(tests, 'xsd', n), 'rb').read()
        res[n] = data
        for m in re.findall(rb'schemaLocation="([^"]*)"', data):
            todo.append(os.path.normpath(m.decode()))
    return res


parts = []
for f in sorted(os.listdir(tests)):
    if not f.endswith('.rs'):
        continue
    src = open(os.path.join(tests, f)).read()
    name = f[:-3]
    xsd = re.search(r'schema = "tests/xsd/([^"]*)"', src).group(1)
    m = re.search(r'include_str!\("./xsd/([^"]*)"\)', src)
    if not m:
        continue
    xml = open(os.path.join(tests, 'xsd', m.group(1)), 'rb').read()
    body = re.search(r'let expected = (.*?);\n', src, re.S).group(1)
    r = Rust(body)
    val = r.value()
    ty = r.last
    written = xml
    if 'result.swap' in src:
        lines = xml.split(b'\n')
        for a, b in reversed(re.findall(r'result\.swap\((\d), (\d)\)', src)):
            a, b = int(a), int(b)
            lines[a], lines[b] = lines[b], lines[a]
        written = b'\n'.join(lines)
    t = []
    t.append('/-! ## `%s` -/\n' % f)
    name = name + '_test'
    t.append('namespace %s\n' % name)
    files = schema_files(xsd)
    for n, data in files.items():
        t.append('/-- `xsd/tests/xsd/%s` -/' % n)
        t.append('def %s : Elem := %s\n' % (n[:-4] + '_xsd', Tree(data).elem()))
        t.append('/-- The text of `xsd/tests/xsd/%s`. -/' % n)
        t.append('def %s : Str := %s\n' % (n[:-4] + '_text', s(data.decode())))
    t.append('/-- The schema files. -/')
    t.append('def dir : Files := directory [%s]\n' % ', '.join('(%s, %s_text, %s_xsd)' % (s(n), n[:-4], n[:-4]) for n in files))
    t.append('/-- The texts of the schema files. -/')
    t.append('def texts : TextFiles := textDirectory [%s]\n' % ', '.join('(%s, %s_text)' % (s(n), n[:-4]) for n in files))
    t.append('theorem texts_files : texts.files = dir := directory_texts (fs := [%s]) (by decide +kernel)\n' %
             ', '.join('(%s, %s_text, %s_xsd)' % (s(n), n[:-4], n[:-4]) for n in files))
    t.append('/-- `xsd/tests/xsd/%s` -/' % m.group(1))
    t.append('def xml : Doc := ⟨%s⟩\n' % Tree(xml).elem())
    t.append('/-- The tags and texts that are written (`xsd/tests/%s`). -/' % f)
    t.append('def written : List Ev :=\n  %s\n' % Tree(written).events())
    t.append('/-- The expected value (`xsd/tests/%s`). -/' % f)
    t.append('def expected : Val := %s\n' % val)
    t.append('/-- The text of `xsd/tests/xsd/%s`. -/' % m.group(1))
    t.append('def text : Str := %s\n' % s(xml.decode()))
    t.append('/-- The text that is written. -/')
    t.append('def writtenText : Str := %s\n' % ('text' if written == xml else s(written.decode())))
    t.append('example : passes dir %s %s xml written expected = true := by decide +kernel\n' % (s(xsd), s(ty)))
    t.append('example : passesText texts.files %s %s text writtenText expected = true := by rw [texts_files]; decide +kernel\n' % (s(xsd), s(ty)))
    t.append('example : Covered dir %s %s := coveredB_sound (by decide +kernel)\n' % (s(xsd), 'false' if f == 'element_ref_type.rs' else 'true'))
    t.append('end %s\n' % name)
    parts.append('\n'.join(t))

per = 13
mods = []
for i in range(0, len(parts), per):
    mod = 'Tests%d' % (i // per + 1)
    mods.append(mod)
    with open(os.path.join(out, mod + '.lean'), 'w') as o:
        o.write('import Verif.Conformance.Covered\n/-!\n# Tests of the repository, evaluated in the model\n\n'
                'Made by `tools/conformance.py`.\n-/\nnamespace Xsd.Conformance\n\n')
        o.write('\n'.join(parts[i:i + per]))
        o.write('\nend Xsd.Conformance\n')
print(mods, len(parts))
