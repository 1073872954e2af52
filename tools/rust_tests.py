#!/usr/bin/env python3
"""Translate the project's hand-written Rust unit tests (literal inputs and expected outputs) into the line format read by
Verif/Conformance.lean.  Output: /verif/conformance/unit_tests.txt"""
import re, sys
R = '/repo/pace/src/'
out = []

def strip(s):
    return re.sub(r'//[^\n]*', '', s)

def bal(s, i):
    """index just past the bracket matching s[i]"""
    o = s[i]; c = {'(': ')', '[': ']', '{': '}'}[o]; d = 0
    while True:
        if s[i] == o: d += 1
        if s[i] == c:
            d -= 1
            if d == 0: return i + 1
        i += 1

def ev(s):
    s = s.strip()
    if s.startswith('&'): s = s[1:]
    s = s.replace('TestTradePayload {', 'dict(').replace('}', ')').replace('vec![', '[')
    s = re.sub(r'\b(direction|is_closed|entry_price|entry_tick|exit_price|exit_tick):', r'\1=', s)
    s = s.replace('TradeDirection::Long', '"L"').replace('TradeDirection::Short', '"S"')
    s = s.replace('true', 'True').replace('false', 'False').replace('Some(', '(')
    return eval(s)

def args(s):
    """split top-level commas"""
    res, d, cur = [], 0, ''
    for ch in s:
        if ch in '([{': d += 1
        if ch in ')]}': d -= 1
        if ch == ',' and d == 0:
            res.append(cur); cur = ''
        else: cur += ch
    if cur.strip(): res.append(cur)
    return res

def num(x):
    if x is None: return '-'
    if x is True: return 'T'
    if x is False: return 'F'
    return repr(x)

def tests(f):
    s = strip(open(R + f).read())
    for m in re.finditer(r'#\[test\]\s*fn (\w+)\(\) \{', s):
        yield m.group(1), s[m.end() - 1: bal(s, m.end() - 1)]

def values(b):
    i = b.index('Vec::from(') + len('Vec::from')
    return ev(b[i + 1: bal(b, i) - 1])

def emit(kind, f, name, params, vals, sigs, exp):
    out.append('T %s %s:%s %s' % (kind, f.split('/')[-1], name, ' '.join(map(num, params))))
    out.append('V ' + ' '.join(map(num, vals)))
    if sigs is not None: out.append('S ' + ' '.join('-' if x is None else x for x in sigs))
    out.append('E ' + ' | '.join(exp))

f = 'strategy/tests/strategy_test.rs'
for name, b in tests(f):
    m = re.search(r'\b_test(_trades_history|_equity)?\(', b)
    a = args(b[m.end(): bal(b, m.end() - 1) - 1])
    cfg = dict(re.findall(r'(\w+): ([\w.]+)', a[0][a[0].index('StrategyConfig'):]))
    params = [cfg['continous'] == 'true', cfg['on_bar_close'] == 'true', float(cfg['initial_capital']), cfg['buy_with_equity'] == 'true']
    exp = ev(a[2]); sigs = ev(a[1])
    if m.group(1) == '_equity':
        emit('equity', f, name, params, values(b), sigs, ['%r %r' % (e[0], e[1]) for e in exp])
    else:
        if m.group(1) is None: exp = [e[1] for e in exp]
        emit('trades', f, name, params, values(b), sigs,
             [' ; '.join(' '.join([t['direction'], num(t['is_closed']), num(t['entry_tick']), num(t['entry_price']), num(t['exit_tick']), num(t['exit_price'])]) for t in e) for e in exp])
for f, kind in [('common/tests/window_validator_test.rs', 'validator'), ('common/tests/fixnan_test.rs', 'fixnan'), ('statistics/tests/mean_test.rs', 'mean'),
                ('statistics/tests/welfords_stdev_test.rs', 'welfords_stdev'), ('statistics/tests/welfords_var_test.rs', 'welfords_var')]:
    for name, b in tests(f):
        m = re.search(r'\b_test\(', b)
        a = args(b[m.end(): bal(b, m.end() - 1) - 1])
        p = re.search(r'ctx\.clone\(\),\s*(\d+)', a[0])
        emit(kind, f, name, [int(p.group(1))] if p else [], values(b), None, [num(e) for e in ev(a[1])])
f = 'statistics/tests/normalization_test.rs'
s = strip(open(R + f).read())
for m in re.finditer(r'(clip_value|scale_value_\w+)\(([^)]*)\)\s*(?:,\s*([-\d.]+)\)|\.compare_with_precision\(([-\d.]+),\s*TEST_PRECISION_F64\))', s):
    out.append('N %s %s = %s %s' % (m.group(1), ' '.join(x.strip() for x in m.group(2).split(',')), m.group(3) or m.group(4), '1e-300' if m.group(3) else '0.01'))
open('/verif/conformance/unit_tests.txt', 'w').write('\n'.join(out) + '\n')
print(len([x for x in out if x[0] in 'TN']), 'tests')
