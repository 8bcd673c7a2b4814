#!/usr/bin/env python3
"""Compare the class tables of lean/Verif/Model/Classes.lean with the class bodies in /repo.

Both sides are read as text (`ast` for Python); nothing of /repo is imported or run.
Prints one line per table and exits non-zero if any entry differs.  With `--catalogue` it prints
the Lean source of the message catalogue (lean/Verif/Spec/Catalogue.lean) instead, with `--names`
that of the names of the class bodies (lean/Verif/Spec/Names.lean).
"""
import ast
import pathlib
import re
import sys
import textwrap

REPO = pathlib.Path('/repo/golem_messages')
LEAN = pathlib.Path(__file__).resolve().parent.parent / 'lean/Verif/Model'
HEAD = '''import Verif.Model.Val
import Verif.Model.Classes
/-!
# Specification: the catalogue of messages

What each message is on the wire.  Written by `tools/check_tables.py --catalogue` from the class
bodies in `/repo`, without looking at the tables of the model.
-/

namespace Verif.Spec

open Verif

/-- What a field holds. -/
inductive Kind where
  /-- Nothing is said about the value. -/
  | plain
  /-- A message of the class, or a list of them; `None` may be sent only if optional. -/
  | message (cls : Cls) (optional list : Bool)
  /-- One of the texts. -/
  | choice (values : List PStr)
  /-- Information on a node. -/
  | node
  deriving DecidableEq

/-- One message class: type number, whether it is signed and encrypted, who may sign it (for
task messages), the fields leading to its `TaskToCompute`, and all fields. -/
structure Entry where
  cls : Cls
  number : Nat
  signed : Bool
  encrypted : Bool
  senders : List Owner := []
  links : List PStr := []
  fields : List (PStr × Kind)

/-- All message classes. -/
def catalogue : List Entry :='''
FILES = ['base', 'p2p', 'tasks', 'resources', 'concents']


def const(node, env):
    if isinstance(node, ast.Constant):
        return node.value
    if isinstance(node, ast.Name):
        return env[node.id]
    if isinstance(node, ast.BinOp) and isinstance(node.op, ast.Add):
        return const(node.left, env) + const(node.right, env)
    raise ValueError(ast.dump(node))


def last(node):
    if isinstance(node, ast.Call):
        return last(node.func)
    return node.attr if isinstance(node, ast.Attribute) else node.id


class Info:
    def __init__(self, name):
        self.name = name
        self.bases, self.attrs, self.type_id, self.inner = [], {}, None, {}
        self.ctor_enum = None


def read_repo():
    classes, order = {}, []
    for f in FILES:
        tree = ast.parse((REPO / 'message' / (f + '.py')).read_text())
        env = {}
        for node in tree.body:
            if isinstance(node, ast.Assign) and isinstance(node.targets[0], ast.Name):
                try:
                    env[node.targets[0].id] = const(node.value, env)
                except (ValueError, KeyError):
                    pass
            if not isinstance(node, ast.ClassDef):
                continue
            c = Info(node.name)
            c.bases = [last(b) for b in node.bases]
            for d in node.decorator_list:
                if isinstance(d, ast.Call) and last(d.func) == 'register':
                    c.type_id = const(d.args[0], env)
                    order.append(node.name)
            for s in node.body:
                if isinstance(s, ast.Assign):
                    c.attrs[s.targets[0].id] = s.value
                if isinstance(s, ast.AnnAssign) and s.value is not None:
                    c.attrs[s.target.id] = s.value
                if isinstance(s, ast.ClassDef):
                    c.inner[s.name] = s
            classes[node.name] = c
    return classes, order


def mro(classes, name):
    """Linearisation of the repository's own classes (C3)."""
    bases = [b for b in classes[name].bases if b in classes]
    seqs = [mro(classes, b) for b in bases] + [list(bases)]
    out = [name]
    while any(seqs):
        seqs = [s for s in seqs if s]
        for s in seqs:
            if not any(s[0] in t[1:] for t in seqs):
                head = s[0]
                break
        out.append(head)
        seqs = [[x for x in s if x != head] for s in seqs]
    return out


def attr(classes, name, key):
    for c in mro(classes, name):
        if key in classes[c].attrs:
            return classes[c].attrs[key]
    return None


def strings(node, classes):
    """Names in a `__slots__` expression: list or tuple, `+` and starred base slots."""
    if isinstance(node, (ast.List, ast.Tuple, ast.Set)):
        out = []
        for e in node.elts:
            if isinstance(e, ast.Starred):
                out += strings(e.value, classes)
            else:
                out.append(e.value)
        return out
    if isinstance(node, ast.BinOp):
        return strings(node.left, classes) + strings(node.right, classes)
    if isinstance(node, ast.Attribute) and node.attr == '__slots__':
        return slots(classes, last(node.value))
    if isinstance(node, ast.Constant):
        return [node.value]
    if isinstance(node, ast.Call) and last(node.func) in ('frozenset', 'set', 'tuple', 'list'):
        return strings(node.args[0], classes) if node.args else []
    raise ValueError(ast.dump(node))


def slots(classes, name):
    v = attr(classes, name, '__slots__')
    return strings(v, classes) if v is not None else []


def payload(classes, name):
    out = []
    for s in slots(classes, name):
        if not s.startswith('_') and s not in ('header', 'sig') and s not in out:
            out.append(s)
    return out


def msg_slots(classes, name):
    v = attr(classes, name, 'MSG_SLOTS')
    out = {}
    if isinstance(v, ast.Dict):
        for k, d in zip(v.keys, v.values):
            kw = {x.arg: x.value.value for x in d.keywords if isinstance(x.value, ast.Constant)}
            cls = d.args[0] if d.args else [x.value for x in d.keywords if x.arg == 'klass'][0]
            cls = cls.value if isinstance(cls, ast.Constant) else last(cls)
            out[k.value] = (cls.split('.')[-1], kw.get('allow_none', False),
                            kw.get('is_list', False))
    return out


def lean_fun(text, name):
    m = re.search(r'def ' + name + r' : .*\n((?:(?:  .*|)\n)*)', text)
    body = re.sub(r'--.*', '', m.group(1))
    out, pats = {}, []
    for arm in re.split(r'(?:^|\s)\| ', body):
        left, _, rhs = arm.partition('=>')
        if not left.strip():
            continue
        pats.append(left.strip().lstrip('.'))
        if rhs:
            for p in pats:
                out[p] = ' '.join(rhs.split())
            pats = []
    return out


def names(rhs):
    return re.findall(r'p!"([^"]*)"', rhs)


def members(node):
    is_str = last(node.bases[0]) == 'StringEnum'
    return is_str, [s.targets[0].id if is_str else s.value.value for s in node.body
                    if isinstance(s, ast.Assign)]


def inner(classes, c, name):
    return [classes[k].inner[name] for k in mro(classes, c) if name in classes[k].inner][0]


def repo_enums(classes, c):
    for k in mro(classes, c):
        if k == 'AbstractReasonMessage':  # a property mapping `reason` to `REASON`
            return {'reason': members(inner(classes, c, 'REASON'))}
        v = classes[k].attrs.get('ENUM_SLOTS')
        if isinstance(v, ast.Dict):
            return {n.value: members(inner(classes, c, last(e))) for n, e in zip(v.keys, v.values)}
    return {}


def node_slots(classes, c):
    v = attr(classes, c, 'NODE_SLOTS')
    return strings(v, classes) if v is not None and not isinstance(v, ast.Name) else []


def prov(classes, c):
    if 'TaskMessage' not in mro(classes, c):
        return []
    return strings(attr(classes, c, 'TASK_ID_PROVIDERS'), classes)


def owners(classes, c):
    if 'TaskMessage' not in mro(classes, c):
        return []
    v = attr(classes, c, 'EXPECTED_OWNERS')
    return [last(e) for e in v.elts]


def wrap(text):
    """Lines of at most 100 characters, broken at blanks outside of string literals."""
    text = re.sub(r'"[^"]*"', lambda m: m.group(0).replace(' ', '\0'), text)
    return [line.replace('\0', ' ') for line in
            textwrap.wrap(text, 94, initial_indent='     ', subsequent_indent='       ',
                          break_on_hyphens=False, break_long_words=False)]


def catalogue():
    """The Lean source of `Verif/Spec/Catalogue.lean`, from the class bodies alone."""
    classes, order = read_repo()
    out = [HEAD]
    for i, c in enumerate(order):
        ms, es, ns = msg_slots(classes, c), repo_enums(classes, c), node_slots(classes, c)
        fields = []
        for f in payload(classes, c):
            if f in ms:
                cls, none, lst = ms[f]
                kind = '.message .%s %s %s' % (cls, str(none).lower(), str(lst).lower())
            elif f in es:
                kind = '.choice [%s]' % ', '.join('p!"%s"' % x for x in es[f][1])
            elif f in ns:
                kind = '.node'
            else:
                kind = '.plain'
            fields.append('(p!"%s", %s)' % (f, kind))
        text = '{ cls := .%s, number := %d, signed := %s, encrypted := %s,' % (
            c, classes[c].type_id, str(attr(classes, c, 'SIGN').value).lower(),
            str(attr(classes, c, 'ENCRYPT').value).lower())
        lines = ['   ' + text]
        if owners(classes, c) or prov(classes, c):
            lines += wrap('senders := [%s], links := [%s],' % (
                ', '.join('.' + o for o in owners(classes, c)),
                ', '.join('p!"%s"' % o for o in prov(classes, c))))
        lines += wrap('fields := [' + ', '.join(fields) + '] }')
        lines[-1] += ',' if i + 1 < len(order) else ']'
        if i == 0:
            lines[0] = '  [' + lines[0].lstrip()
        out += lines
    out += ['', 'end Verif.Spec', '']
    return '\n'.join(out)


NAMES = '''import Verif.Model.Val
import Verif.Model.Classes
/-!
# Specification: the names in the class bodies

Written by `tools/check_tables.py --names` from the class bodies in `/repo`, without looking at the
tables of the model.  Names with two underscores at both ends are left out, and `slots`, which is a
parameter of the constructors.
-/

namespace Verif.Spec

open Verif
'''


def body_names(tree):
    """Names bound in the bodies of the classes of a module: (class attributes and methods, properties)."""
    out = {}
    for node in tree.body:
        if not isinstance(node, ast.ClassDef):
            continue
        plain, props = [], []
        for s in node.body:
            if isinstance(s, ast.Assign):
                plain += [t.id for t in s.targets]
            elif isinstance(s, ast.AnnAssign) and s.value is not None:
                plain.append(s.target.id)
            elif isinstance(s, ast.ClassDef):
                plain.append(s.name)
            elif isinstance(s, ast.FunctionDef):
                decs = [ast.unparse(d) for d in s.decorator_list]
                if any(d.endswith('.setter') for d in decs):
                    continue
                (props if 'property' in decs else plain).append(s.name)
        out[node.name] = ([n for n in plain if not n.startswith('__') and n != 'slots'], props)
    return out


def class_names():
    """The Lean source of `Verif/Spec/Names.lean`, from the class bodies alone."""
    classes, order = read_repo()
    bodies = {}
    for f in FILES:
        bodies.update(body_names(ast.parse((REPO / 'message' / (f + '.py')).read_text())))
    mixins = {}
    for f in ('promissory', 'p2p'):
        mixins.update(body_names(ast.parse((REPO / 'datastructures' / (f + '.py')).read_text())))
    out = [NAMES]
    done = {}

    def bases(c):
        r = []
        for b in mro(classes, c):
            r.append(b)
            r += [x for x in classes[b].bases if x in mixins]
        return r

    for k, (what, comment) in enumerate([
            ('classAttributes', 'The class attributes and methods of a class and those it inherits.'),
            ('classProperties', 'The properties of a class and those it inherits.')]):
        shared = {}
        for c in order:
            for b in bases(c):
                if b not in order:
                    shared.setdefault(b, (bodies.get(b) or mixins[b])[k])
        for b, names in shared.items():
            if names:
                out.append('/-- Those of the body of `%s`. -/' % b)
                out.append('def %s%s : List PStr :=' % (what, b))
                out += [line[3:] for line in wrap('[' + ', '.join('p!"%s"' % n for n in names) + ']')] + ['']
        out.append('/-- %s -/' % comment)
        out.append('def %s : Cls → List PStr' % what)
        for c in order:
            parts = []
            for b in bases(c):
                if b in shared:
                    if shared[b]:
                        parts.append(what + b)
                elif bodies[b][k]:
                    parts.append('[' + ', '.join('p!"%s"' % n for n in bodies[b][k]) + ']')
            lines = [line[3:] for line in wrap('| .%s => %s' % (c, ' ++ '.join(parts) or '[]'))]
            out += lines
        out.append('')
    out += ['end Verif.Spec', '']
    return '\n'.join(out)


VALIDATORS = {
    'validate_varchar': '.varchar Option.none', 'validate_varchar128': '.varchar (some 128)',
    'validate_integer': '.integer', 'validate_boolean': '.boolean', 'validate_dict': '.dict',
    'validate_port': '.port', 'validate_ipaddress': '.ipaddress', 'validate_version': '.version',
}
CHECKS = {
    'isinstance(x, bytes)': '.isBytes', 'x >= 0': '.nonNegative', 'x > 0': '.positive',
    'isinstance(x, (dict, dt_p2p.Node))': '.isDictOr .node',
    # `BlockIoEntry` and `MemoryData` are subclasses of `dict` (through `FrozenDict`)
    'isinstance(x, (dict, BlockIoEntry))': '.dict', 'isinstance(x, (dict, MemoryData))': '.dict',
    "validate_varchar(max_length=float('infinity'))": '.varchar Option.none',
    'isinstance(x, (dict, BlockIoStats))': '.isDictOr .blockIoStats',
    'isinstance(x, (dict, CpuStats))': '.isDictOr .cpuStats',
    'isinstance(x, (dict, MemoryStats))': '.isDictOr .memoryStats',
    'isinstance(x, (dict, PidStats))': '.isDictOr .pidStats',
}
CONTAINERS = {
    'node': ('p2p', 'Node'), 'taskHeader': ('tasks', 'TaskHeader'),
    'blockIoStats': ('stats', None), 'cpuStats': ('stats', None), 'memoryStats': ('stats', None),
    'pidStats': ('stats', None), 'providerStats': ('stats', None),
}


def validator(node, env):
    if isinstance(node, ast.Name) and node.id in env:
        return validator(env[node.id], env)
    if isinstance(node, ast.Call) and last(node.func) == 'partial':
        what = last(node.args[0])
        if what != 'fail_unless':
            text = what + '(' + ', '.join(k.arg + '=' + ast.unparse(k.value)
                                          for k in node.keywords) + ')'
            return CHECKS.get(text, text)
        body = [k.value for k in node.keywords if k.arg == 'check'][0].body
        return CHECKS.get(ast.unparse(body), ast.unparse(body))
    return VALIDATORS.get(last(node), ast.unparse(node))


def check_containers(check):
    text = (LEAN / 'Containers.lean').read_text()
    lean = lean_fun(text, r'ContId\.slots')
    pairs = []
    for cid, (f, name) in CONTAINERS.items():
        tree = ast.parse((REPO / 'datastructures' / (f + '.py')).read_text())
        cls = [n for n in tree.body if isinstance(n, ast.ClassDef)
               and n.name.lower() == (name or cid).lower()][0]
        v = [s.value for s in cls.body if isinstance(s, ast.Assign)
             and s.targets[0].id == '__slots__'][0]
        env = {n.targets[0].id: n.value for n in tree.body if isinstance(n, ast.Assign)}
        env.update((s.targets[0].id, s.value) for s in cls.body if isinstance(s, ast.Assign))
        if isinstance(v, ast.DictComp):
            keys = env[v.generators[0].iter.id].elts
            repo = [(k.value, [validator(x, env) for x in v.value.elts]) for k in keys]
        else:
            repo = [(k.value, [validator(x, env) for x in e.elts])
                    for k, e in zip(v.keys, v.values)]
        for st in cls.body:  # `__slots__.update({...})`
            if isinstance(st, ast.Expr) and isinstance(st.value, ast.Call) \
                    and ast.unparse(st.value.func) == '__slots__.update':
                d = st.value.args[0]
                repo += [(k.value, [validator(x, env) for x in e.elts])
                         for k, e in zip(d.keys, d.values)]
        got = [(n, re.findall(r'\.(?:varchar (?:Option\.none|\(some \d+\))|isDictOr \.\w+|\w+)', b))
               for n, b in re.findall(r'\(p!"([^"]*)", \[(.*?)\]\)', lean[cid])]
        for a, b in zip(repo, got):
            pairs.append((cid, a, b))
        pairs.append((cid, len(repo), len(got)))
    check('containers', pairs)


def main():
    classes, order = read_repo()
    text = (LEAN / 'Classes.lean').read_text()
    bad = []

    def check(table, pairs):
        n = 0
        for what, repo, lean in pairs:
            n += 1
            if repo != lean:
                bad.append((table, what, repo, lean))
        print('%-16s %4d entries' % (table, n))

    all_ = re.findall(r'\.(\w+)', re.search(r'def Cls\.all.*?\]', text, re.S).group(0))
    all_ = [a for a in all_ if a[0].isupper()]
    check('all', [('classes', order, all_)])
    get = {k: lean_fun(text, r'Cls\.' + k) for k in
           ['typeId', 'payload', 'msgSlots', 'enumSlots', 'nodeSlots', 'encrypt', 'sign', 'isTask',
            'taskIdProviders', 'expectedOwners']}

    def lk(k, c, default):
        return get[k].get(c, get[k].get('_', default))

    check('typeId', [(c, classes[c].type_id, int(get['typeId'][c])) for c in order])
    check('payload', [(c, payload(classes, c), names(get['payload'][c])) for c in order])
    def lean_msg(c):
        out = {}
        for n, body in re.findall(r'\(p!"([^"]*)", \{(.*?)\}\)', lk('msgSlots', c, '')):
            out[n] = (re.search(r'cls := \.(\w+)', body).group(1),
                      'allowNone := true' in body, 'isList := true' in body)
        return out
    check('msgSlots', [(c, msg_slots(classes, c), lean_msg(c)) for c in order])
    enums = (LEAN / 'Enums.lean').read_text()
    values, string_enum = lean_fun(enums, r'EnumId\.values'), lean_fun(enums, r'EnumId\.isStringEnum')
    def lean_enums(c):
        return {n: (string_enum[e] == 'true', names(values[e]))
                for n, e in re.findall(r'\(p!"([^"]*)", \.(\w+)\)', lk('enumSlots', c, ''))}
    check('enumSlots', [(c, repo_enums(classes, c), lean_enums(c)) for c in order])
    check('nodeSlots', [(c, sorted(node_slots(classes, c)), sorted(names(lk('nodeSlots', c, ''))))
                        for c in order])
    for k, a in (('encrypt', 'ENCRYPT'), ('sign', 'SIGN')):
        check(k, [(c, attr(classes, c, a).value, lk(k, c, '') == 'true') for c in order])
    check('isTask', [(c, 'TaskMessage' in mro(classes, c), lk('isTask', c, '') == 'true')
                     for c in order])
    check('taskIdProviders', [(c, prov(classes, c), names(lk('taskIdProviders', c, ''))) for c in order])
    check('expectedOwners', [(c, owners(classes, c), re.findall(r'\.(\w+)', lk('expectedOwners', c, '')))
                             for c in order])
    check_containers(check)
    for b in bad:
        print('DIFFERS', *b)
    sys.exit(bool(bad))


if __name__ == '__main__':
    if sys.argv[1:] == ['--catalogue']:
        print(catalogue(), end='')
    elif sys.argv[1:] == ['--names']:
        print(class_names(), end='')
    else:
        main()
