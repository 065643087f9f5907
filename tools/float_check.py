#!/usr/bin/env python3
"""Compare the model's floats (lean/Verif/Model/Float*.lean) with this machine's IEEE-754 arithmetic on random and special operands.
A test of the model, not part of the proofs. Usage: tools/float_check.py [number of random pairs] [seed]"""
import decimal, math, os, random, struct, subprocess, sys, tempfile
N = int(sys.argv[1]) if len(sys.argv) > 1 else 300
random.seed(int(sys.argv[2]) if len(sys.argv) > 2 else 1)
HERE = os.path.dirname(os.path.abspath(__file__))
def d2b(x): return struct.unpack('<Q', struct.pack('<d', x))[0]
def b2d(b): return struct.unpack('<d', struct.pack('<Q', b))[0]
def b2f(b): return struct.unpack('<f', struct.pack('<I', b))[0]
def f2b(x):
    if math.isnan(x): return 0x7fc00000
    try: return struct.unpack('<I', struct.pack('<f', x))[0]
    except OverflowError: return 0x7f800000 | (0x80000000 if x < 0 else 0)
def tobits(w, x): return d2b(x) if w == 64 else f2b(x)
def ofbits(w, b): return b2d(b) if w == 64 else b2f(b)
def div(x, y):
    if math.isnan(x) or math.isnan(y): return math.nan
    if y == 0:
        if x == 0: return math.nan
        return math.copysign(math.inf, math.copysign(1, x) * math.copysign(1, y))
    return x / y
def rem(x, y):
    if math.isnan(x) or math.isnan(y) or math.isinf(x) or y == 0: return math.nan
    return math.fmod(x, y)
def sqrt(x):
    if math.isnan(x) or x < 0: return math.nan
    return math.sqrt(x)
def cmp(x, y):
    if math.isnan(x) or math.isnan(y): return 3
    return 0 if x < y else 1 if x == y else 2
def cast(x):  # x as usize, 64 bits
    if math.isnan(x) or x <= 0: return 0
    return 2**64 - 1 if x >= 2.0**64 else int(x)
def tousize(x):  # num-traits to_usize, 64 bits; 2^64 for None
    return int(x) if x > -1 and x < 2.0**64 else 2**64
def text(w, x):  # Rust's {}
    if math.isnan(x): return 'NaN'
    if math.isinf(x): return 'inf' if x > 0 else '-inf'
    for n in range(18):
        t = decimal.Context(prec=n + 1, rounding=decimal.ROUND_HALF_UP).create_decimal(x)  # ties as in core::num::flt2dec::strategy::dragon
        if tobits(w, float(t)) == tobits(w, x): break
    t = format(t, 'f')
    return t.rstrip('0').rstrip('.') if '.' in t else t
def fixed(k, x):  # Rust's {:.k}
    if math.isnan(x): return 'NaN'
    if math.isinf(x): return 'inf' if x > 0 else '-inf'
    return '%.*f' % (k, x)
def sci(t):  # Rust's exponents have no + and no leading zeros
    m, e = t.lower().split('e') if 'e' in t.lower() else (t, '0')
    return m + 'e' + str(int(e))
def expshort(w, x):  # Rust's {:e}
    if math.isnan(x) or math.isinf(x): return text(w, x)
    if x == 0: return '-0e0' if math.copysign(1, x) < 0 else '0e0'
    for n in range(18):
        t = decimal.Context(prec=n + 1, rounding=decimal.ROUND_HALF_UP).create_decimal(x)
        if tobits(w, float(t)) == tobits(w, x): break
    t = t.normalize(decimal.Context(prec=40))
    return sci('%se%d' % (format(t.scaleb(-t.adjusted()), 'f'), t.adjusted()))
def expfixed(k, x):  # Rust's {:.ke}
    if math.isnan(x): return 'NaN'
    if math.isinf(x): return 'inf' if x > 0 else '-inf'
    return sci('%.*e' % (k, x))
def debug(w, x):  # Rust's {:?}
    if math.isnan(x) or math.isinf(x): return text(w, x)
    if x != 0 and abs(x) < ofbits(w, tobits(w, 1e-4)) or abs(x) >= 1e16: return expshort(w, x)
    t = text(w, x)
    return t if '.' in t else t + '.0'
SPECIAL = [0.0, -0.0, 1.0, -1.0, math.inf, -math.inf, math.nan, 5e-324, -5e-324, 2.0**-1022, 1.7976931348623157e308, 2.0**53, 2.0**53 + 2, 0.1, 0.5, 1.5, 2.5, 3.0, 2.0**64, 2.0**63, 1e-45, 3.4028234663852886e38, 2.0**-126, 2.0**24 + 2, 1e-4, 1e16, 9999999999999998.0, 0.00009999]
def rnd(w):
    k = random.random()
    if k < 0.15: return tobits(w, random.choice(SPECIAL))
    if k < 0.45: return random.getrandbits(w)
    if k < 0.7: return tobits(w, random.randint(-50, 50) / random.choice([1, 2, 4, 10, 3]))
    if k < 0.85: return tobits(w, random.uniform(-1, 1) * 2.0**random.choice([-1040, -1022, -140, -126, 0, 24, 53, 63, 64, 127, 1000]) * random.uniform(0.5, 1))
    return tobits(w, random.uniform(-10, 10))
rows = []
for w in (64, 32):
    for _ in range(N):
        a, b = rnd(w), rnd(w)
        if random.random() < 0.15: b = (a + random.randint(-2, 2)) % 2**w
        x, y = ofbits(w, a), ofbits(w, b)
        res = [x + y, x - y, x * y, div(x, y), rem(x, y), sqrt(x)]
        # for f32: one double operation on two single operands, rounded once more, is correctly rounded
        bits = [tobits(w, r) for r in res]
        rows.append(' '.join(map(str, [w, a, b, *bits, cmp(x, y), cast(x), tousize(x)])) + ' ' + text(w, x) + ' ' + fixed(2, x) + ' ' + fixed(0, x) + ' ' + expshort(w, x) + ' ' + expfixed(2, x) + ' ' + expfixed(0, x) + ' ' + debug(w, x))
lean = '''import Verif.Model.FloatSqrt
import Verif.Model.FloatText
import Verif.Model.FloatTextExp
import Verif.Model.Debug
open NdHist
local instance : Cfg := ⟨64, true, by decide⟩
def dec (F : FFmt) (w m b : Nat) : Flt F :=
  let s := b / 2 ^ (w - 1) == 1
  let e := (b / 2 ^ m) % 2 ^ (w - 1 - m)
  let f := b % 2 ^ m
  if e == 2 ^ (w - 1 - m) - 1 then (if f == 0 then .inf s else .nan)
  else
    let x : ℚ := if e == 0 then (f : ℚ) * pow2 F.qmin else ((2 ^ m + f : Nat) : ℚ) * pow2 (F.qmin + (e - 1 : Nat))
    if h : F.Rep x then .fin s x h else .nan
def show' {F : FFmt} : Flt F → String
  | .nan => "nan" | .inf s => s!"inf {s}" | .fin s x _ => s!"{s} {x}"
def num : Option Ordering → Nat | some .lt => 0 | some .eq => 1 | some .gt => 2 | none => 3
def check (F : FFmt) (w m a b : Nat) (rs : List Nat) (c u v : Nat) (ts : List String) : List String :=
  let x := dec F w m a
  let y := dec F w m b
  let got := [x.add y, x.sub y, x.mul y, x.div y, x.rem y, x.sqrt]
  let bad := ((got.zip rs).zip ["add", "sub", "mul", "div", "rem", "sqrt"]).filterMap fun ((g, r), n) =>
    if show' g == show' (dec F w m r) then none else some s!"{n} {a} {b}: {show' g} expected {show' (dec F w m r)}"
  bad ++ (if num (x.pcmp y) == c then [] else [s!"cmp {a} {b}"]) ++ (if x.asUsize == u then [] else [s!"asUsize {a}"]) ++
    (if (x.toUsize.getD (2 ^ 64)) == v then [] else [s!"toUsize {a}"]) ++
    (if [Flt.text.fmt none x, Flt.text.fmt (some 2) x, Flt.text.fmt (some 0) x, (Flt.expText false).fmt none x, (Flt.expText false).fmt (some 2) x, (Flt.expText false).fmt (some 0) x, String.ofList x.dbgChars] == ts then [] else [s!"text {a}: {Flt.text.fmt none x} {Flt.text.fmt (some 2) x} {Flt.text.fmt (some 0) x} {(Flt.expText false).fmt none x} {(Flt.expText false).fmt (some 2) x} {(Flt.expText false).fmt (some 0) x} {String.ofList x.dbgChars} expected {ts}"])
def row (l : String) : List String :=
  match (l.splitOn.take 12).map String.toNat! with
  | [w, a, b, r0, r1, r2, r3, r4, r5, c, u, v] =>
    if w == 64 then check .f64 64 52 a b [r0, r1, r2, r3, r4, r5] c u v (l.splitOn.drop 12) else check .f32 32 23 a b [r0, r1, r2, r3, r4, r5] c u v (l.splitOn.drop 12)
  | _ => [l]
#eval do
  let ls ← IO.FS.lines "ROWS"
  let bad := ls.toList.flatMap row
  IO.println s!"{ls.size} pairs, {bad.length} differences"
  for l in bad.take 20 do IO.println l
'''
with tempfile.NamedTemporaryFile('w', suffix='.txt', delete=False) as g: g.write('\n'.join(rows))
lean = lean.replace('ROWS', g.name)
with tempfile.NamedTemporaryFile('w', suffix='.lean', delete=False) as f: f.write(lean)
r = subprocess.run(['lake', 'env', 'lean', f.name], cwd=os.path.join(HERE, '..', 'lean'), capture_output=True, text=True)
print((r.stdout + r.stderr)[-3000:])
os.unlink(f.name)
os.unlink(g.name)
