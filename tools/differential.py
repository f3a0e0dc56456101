"""Differential test of the Lean model against `port.py` on random and damaged files.

    python3 differential.py [seed] [number of files]

It writes a driver to a temporary directory (not part of the Lake project), runs the *model's own definitions* in it with
`lake env lean --run`, and compares line by line: the outcome of loading (error kind and message), the log of requests, the
`Debug` text of `get()`, `id_of`, `name_of`, `size_of`, `pointee_tid`, `offset_of`, for both pointer widths, with and without
overflow checks. This is a test of the transcription, not a proof, and no claim in MANIFEST.json rests on it.
"""
import os, random, struct, subprocess, sys, tempfile
sys.setrecursionlimit(10000)
sys.path.insert(0, os.path.dirname(os.path.abspath(__file__)))
from port import *

DRIVER = r'''
import Verif.Model.Message
import Verif.Model.Debug
import Verif.Model.Buffer
open Btf

def unhex (s : String) : List UInt8 :=
  let d (c : Char) : Nat := if c.toNat < 58 then c.toNat - 48 else c.toNat - 87
  let rec go : List Char → List UInt8
    | a :: b :: r => UInt8.ofNat (d a * 16 + d b) :: go r
    | _ => []
  go s.toList

def tohex (s : List UInt8) : String :=
  let d (n : Nat) : Char := Char.ofNat (if n < 10 then 48 + n else 87 + n)
  String.ofList (s.flatMap fun b => [d (b.toNat / 16), d (b.toNat % 16)])

def kindName (k : ErrorKind) : String := ((reprStr k).splitOn ".").getLast!

def told {α : Type} (f : α → String) : Told α → String
  | .ok a => "OK " ++ f a
  | .err r => "ERR " ++ kindName r.kind ++ " " ++ tohex (r.message TypeVariant.debug)
  | .panic => "PANIC"
  | .nofuel => "DIVERGES"

def main (args : List String) : IO Unit := do
  let lines ← IO.FS.lines args.head!
  let mut cfg : Cfg := ⟨.w64, true⟩
  let mut ti := TypeInformation.empty
  for l in lines do
    let w := l.splitOn " "
    match w with
    | ["N", c, h] =>
      cfg := ⟨if c.startsWith "3" then .w32 else .w64, c.endsWith "c"⟩
      let src := readableBuffer cfg (unhex h)
      let r := TypeInformation.newE cfg src
      match r with
      | .ok t => ti := t; IO.println ("OK " ++ tohex (debugMap t.get))
      | .err e => ti := TypeInformation.empty; IO.println ("ERR " ++ kindName e.kind ++ " " ++ tohex e.message)
      | .panic => ti := TypeInformation.empty; IO.println "PANIC"
      | .nofuel => ti := TypeInformation.empty; IO.println "DIVERGES"
      IO.println (String.intercalate "," ((TypeInformation.newTrace cfg src).reverse.map fun e =>
        s!"{e.offset}:{e.len}:{if e.failed.isSome then 0 else 1}"))
    | ["I", h] => IO.println (match ti.idOf (unhex h) with | some i => s!"{i}" | none => "none")
    | ["M", t] => IO.println (match ti.nameOf (UInt32.ofNat t.toNat!) with | some n => "some " ++ tohex n | none => "none")
    | ["S", t] => IO.println (told (fun n => s!"{n}") (ti.sizeOfT cfg 1500 (UInt32.ofNat t.toNat!)))
    | ["P", t] => IO.println (told (fun n => s!"{n}") (ti.pointeeTidT 1500 (UInt32.ofNat t.toNat!)))
    | ["O", t, h] => IO.println (told (fun p => s!"{p.1} " ++ tohex p.2.debug)
        (ti.offsetOfT cfg 1500 (UInt32.ofNat t.toNat!) (unhex h)))
    | _ => IO.println "??"
'''

NAMES = ["a", "b", "list_head", "void", "int", "x", "é", "ª", "c3", "_", "\x01", "a\"b", "µ", "n x", "²", "list", "\xad\x7f"]


def gen_file(R):
    big = R.random() < .3
    E = ">" if big else "<"
    strs, offs = b"\0", {}
    for n in NAMES:
        offs[n] = len(strs)
        strs += n.encode("latin-1") + b"\0"
    nt = R.randrange(1, 9)

    def noff(z=.25):
        if R.random() < z: return 0
        if R.random() < .03: return R.choice([len(strs) - 1, len(strs), 5, 2**32 - 1, 2**31])
        return offs[R.choice(NAMES)]

    def tid():
        return R.randrange(0, nt + 2) if R.random() < .95 else R.choice([2**32 - 1, nt + 1, nt + 2])

    def u32(*v): return b"".join(struct.pack(E + "I", x) for x in v)
    types = b""
    for _ in range(nt):
        k = R.choice([1, 2, 3, 3, 4, 4, 4, 4, 5, 5, 6, 7, 8, 8, 9, 10, 11, 12, 13, 14, 15, 16, 17, 18, 19]) if R.random() < .985 else R.choice([0, 20, 31, 25])
        kf = R.random() < .4
        v = R.choice([0, 1, 2, 3, 4]) if k in (4, 5, 6, 13, 15, 19) else (R.randrange(3) if k == 3 and R.random() < .2 else (0 if R.random() < .95 else 3))
        info = v | k << 24 | (kf << 31)
        if R.random() < .05: info |= R.choice([1 << 29, 1 << 30, 1 << 20])
        if k in (1, 4, 5, 6, 15, 16, 19):
            st = R.choice([0, 1, 2, 4, 8, 16, 24, 40, 2**31, 2**32 - 1, R.randrange(2**32)])
        else: st = tid()
        no = noff()
        if k == 4 and R.random() < .3: no, st = offs["list_head"], R.choice([8, 16, 17, 2**32 - 1])
        types += u32(no, info, st)
        if k == 1: types += u32(R.choice([32, 8, 0x01000020, 0x02080008, 0x04000008, R.randrange(2**32)]))
        if k in (14, 17): types += u32(R.choice([0, 1, 2, R.randrange(2**32)]))
        if k == 3: types += u32(tid(), tid(), R.choice([0, 1, 2, 3, 10, 1000, 2**31, 2**32 - 1]))
        if k in (4, 5):
            for _ in range(v):
                raw = R.choice([0, 8, 32, 64, 72, 8 * R.randrange(100)])
                if kf and R.random() < .4: raw = R.randrange(2**24) | R.choice([0, 1, 3, 255]) << 24
                if R.random() < .06: raw = R.choice([3, 2**32 - 8, 2**24 - 8, R.randrange(2**32)])
                types += u32(noff(.45), tid(), raw)
        if k == 6:
            for _ in range(v): types += u32(noff(.1), R.choice([0, 1, 2**31, 2**32 - 1, R.randrange(2**32)]))
        if k == 19:
            for _ in range(v): types += u32(noff(.1)) + struct.pack(E + "Q", R.choice([0, 1, 2**63, 2**64 - 1, R.randrange(2**64)]))
        if k == 13:
            for _ in range(v): types += u32(noff(.3), tid())
        if k == 15:
            for _ in range(v): types += u32(tid(), R.randrange(64), R.choice([4, 8]))
    hl = 24 if R.random() < .9 else R.choice([25, 32, 24])
    pad = R.choice([0, 0, 0, 4, 3])
    h = [hl, 0, len(types), len(types) + pad, len(strs)]
    body = types + b"\xAA" * pad + strs
    if R.random() < .2:
        h[1], h[3] = len(strs) + pad, 0
        body = strs + b"\xBB" * pad + types
    if R.random() < .12:
        i = R.randrange(5)
        h[i] = R.choice([0, h[i] + 1, max(0, h[i] - 1), h[i] + 4, max(0, h[i] - 4), 2**32 - 1, 2**32 - h[0], 2**31, 2**32 - 24 - h[i], R.randrange(2**32)])
    f = struct.pack(E + "HBB5I", 0xEB9F, R.choice([1, 1, 1, 0, 2]), R.choice([0, 0, 7]), *h) + b"\xCC" * (hl - 24) + body
    if R.random() < .1: f = f[:R.randrange(len(f) + 1)]
    if R.random() < .1: f += bytes(R.randrange(256) for _ in range(R.randrange(6)))
    if R.random() < .15:
        b = bytearray(f)
        for _ in range(R.randrange(1, 4)):
            if b: b[R.randrange(len(b))] = R.choice([0, 1, 255, R.randrange(256)])
        f = bytes(b)
    return f


def gen_wide(R):
    """offsets near 2^32"""
    strs, offs = b"\0", {}
    for n in NAMES:
        offs[n] = len(strs)
        strs += n.encode("latin-1") + b"\0"
    u32 = lambda *v: b"".join(struct.pack("<I", x) for x in v)
    big = lambda: R.choice([2**29, 2**29 - 1, 2**30, 2**31, 2**28, 2**32 - 1, 4])
    t = u32(offs["int"], 1 << 24, big(), 32) + u32(0, 3 << 24, 0, 1, 1, 8)
    t += u32(0, 4 << 24 | 3 | 1 << 31, big(), offs["a"], 2, R.choice([0, 2**24 - 8]), R.choice([0, offs["b"]]), 1,
             R.choice([3 | 1 << 24, 2**24 - 1, 5 << 24 | 2**24 - 1]), R.choice([0, offs["b"]]), 2, R.choice([8, 2**24 - 8]))
    t += u32(0, 3 << 24, 0, 3, 1, 4)
    t += u32(0, 4 << 24 | 2, big(), offs["x"], 4, R.choice([0, 2**32 - 8, 2**31]), R.choice([0, offs["b"]]), 3, R.choice([0, 2**32 - 8]))
    t += u32(0, 3 << 24, 0, 5, 1, 4)
    h = [24, 0, len(t), len(t), len(strs)]
    return struct.pack("<HBB5I", 0xEB9F, 1, 0, *h) + t + strs


def wide_path(R):
    p = R.choice(["x", "a", "b", "[%d]" % R.randrange(5), "x[1].a[3]", "x[3].b", "[3].x[3].b", "[2].x[2].a[7]", "[1].b.b", "[1].a[7]"])
    while R.random() < .5: p += R.choice([".a", ".b", "[%d]" % R.randrange(8), ".x"])
    return p


def gen_path(R):
    if R.random() < .03: return ""
    p = ""
    for j in range(R.choice([1, 1, 2, 2, 3, 4])):
        if R.random() < .25:
            p += "[" + R.choice(["0", "1", "2", "00001", "999", "1000", "4294967295", "4294967296", "18446744073709551615",
                                 "18446744073709551616", "2147483648", "", "x", "1x", "²", "-1", " 1"]) + "]"
        else: p += ("." if p else "") + R.choice(NAMES[:12] + ["zz"])
    if R.random() < .15:
        i = R.randrange(len(p) + 1)
        p = p[:i] + R.choice([".", "[", "]", "..", "é", "ªª", "$", " ", "0", "\0", "–"]) + p[i:]
    if R.random() < .05: p = p[:-1]
    return p


def outcome(f, g=str):
    try:
        return "OK " + g(f())
    except Err as e:
        return "ERR %s %s" % (e.kind, e.message.encode("utf-8", "surrogateescape").hex())
    except Panic:
        return "PANIC"
    except Diverges:
        return "DIVERGES"


def main():
    seed = int(sys.argv[1]) if len(sys.argv) > 1 else 1
    count = int(sys.argv[2]) if len(sys.argv) > 2 else 400
    R = random.Random(seed)
    ask, want, tally = [], [], {}

    def put(q, a):
        ask.append(q)
        want.append(a)
        w = a.split(" ")
        key = q[0] + " " + (" ".join(w[:2]) if w[0] == "ERR" else w[0] if q[0] in "NSPO" and w[0] in ("OK", "PANIC", "DIVERGES") else "")
        tally[key] = tally.get(key, 0) + 1
    for _ in range(count):
        wide = R.random() < .1
        f = gen_wide(R) if wide else gen_file(R)
        for c in (("64c", "64r", "32c", "32r") if R.random() < .5 else ("64c",)):
            cfg = Cfg(int(c[:2]), c[2] == "c")
            r = Reader(cfg, Buffer(cfg, f))
            ti = []
            a = outcome(lambda: ti.append(TypeInformation(r)) or ti[0].get().encode().hex())
            put("N %s %s" % (c, f.hex()), a)
            want.append(",".join("%d:%d:%d" % (o, n, int(k)) for o, n, k in r.log))
            if not ti: continue
            t = ti[0]
            for n in NAMES + ["zz"]:
                i = t.id_of(n)
                put("I " + n.encode().hex(), "none" if i is None else str(i))
            for i in list(range(len(t.types) + 2)) + [2**32 - 1]:
                m = t.name_of(i)
                put("M %d" % i, "none" if m is None else "some " + m.encode().hex())
                put("S %d" % i, outcome(lambda: t.size_of(i)))
                put("P %d" % i, outcome(lambda: t.pointee_tid(i)))
                for _ in range(5):
                    p = (wide_path if wide else gen_path)(R).encode()
                    put("O %d %s" % (i, p.hex()), outcome(lambda: t.offset_of(i, p), lambda x: "%d %s" % (x[0], dbg(x[1]).encode().hex())))
    d = tempfile.mkdtemp()
    open(d + "/Driver.lean", "w").write(DRIVER)
    open(d + "/in", "w").write("\n".join(ask) + "\n")
    lean = os.path.join(os.path.dirname(os.path.abspath(__file__)), "..", "lean")
    out = subprocess.run("ulimit -s unlimited; lake env lean --run %s/Driver.lean %s/in" % (d, d), shell=True, cwd=lean, capture_output=True, text=True)
    got = out.stdout.split("\n")[:-1]
    bad = 0
    j = 0
    for q in ask:
        n = 2 if q[0] == "N" else 1
        if got[j:j + n] != want[j:j + n]:
            bad += 1
            if bad < 5: print("DIFFERENT", q[:2000], "\n  port ", want[j:j + n], "\n  model", got[j:j + n])
        if q[0] == "N": last = q
        elif got[j:j + n] != want[j:j + n] and bad < 5: print("  file", last)
        j += n
    for k in sorted(tally): print("%8d  %s" % (tally[k], k))
    print("%d questions, %d differences; driver: %d lines of %d %s" % (len(ask), bad, len(got), len(want), out.stderr[:500]))
    sys.exit(1 if bad or len(got) != len(want) else 0)


main()
