"""A second, independent transcription of the crate (to Python, from the Rust text), used by `differential.py` to
test the fidelity of the Lean model. It was written from /repo/src only, function by function, with Rust's data structures
(strings as text, dictionaries for the maps, exceptions for `?` and panics) and not the model's.
"""
import unicodedata


class Err(Exception):
    def __init__(self, kind, message):
        self.kind, self.message = kind, message


class Panic(Exception):
    pass


class Diverges(Exception):
    pass


U32 = 1 << 32


class Cfg:
    def __init__(self, bits, checks):
        self.usize, self.checks = 1 << bits, checks

    def add(self, a, b, mod=None):
        mod = mod or self.usize
        if a + b >= mod:
            if self.checks:
                raise Panic()
        return (a + b) % mod

    def mul(self, a, b):
        if a * b >= self.usize and self.checks:
            raise Panic()
        return (a * b) % self.usize


def checked_add(a, b, mod, kind, msg):
    if a + b >= mod:
        raise Err(kind, msg)
    return a + b


# src/utils/readable_buffer.rs, src/utils/reader.rs
class Buffer:
    def __init__(self, cfg, data):
        self.cfg, self.data = cfg, data

    def read(self, offset, n):
        start = offset % self.cfg.usize
        if start == len(self.data):
            raise Err("EOF", "There are no bytes left to read")
        end = checked_add(start, n, self.cfg.usize, "InvalidOffset", "Buffer offset addition overflow")
        if end > len(self.data):
            raise Err("InvalidOffset", "There are not enough bytes left to complete the read request")
        return self.data[start:end]


class Reader:
    def __init__(self, cfg, readable):
        self.cfg, self.readable, self.offset, self.order, self.log = cfg, readable, 0, "little", []

    def read(self, n):
        try:
            b = self.readable.read(self.offset, n)
        except Err:
            self.log.append((self.offset, n, False))
            raise
        self.log.append((self.offset, n, True))
        self.offset = self.cfg.add(self.offset, n)
        return b

    def uint(self, n):
        return int.from_bytes(self.read(n), self.order)

    def u8(self): return self.uint(1)
    def u16(self): return self.uint(2)
    def u32(self): return self.uint(4)
    def u64(self): return self.uint(8)

    def i32(self):
        v = self.uint(4)
        return v - (1 << 32) if v >> 31 else v

    def i64(self):
        v = self.uint(8)
        return v - (1 << 64) if v >> 63 else v


# src/btf/file_header.rs
class FileHeader:
    def __init__(self, r):
        r.offset = 0
        magic = r.u16()
        if magic == 0xEB9F:
            r.order = "little"
        elif magic == 0x9FEB:
            r.order = "big"
        else:
            raise Err("InvalidMagic", "Invalid magic number: 0x%04X" % magic)
        self.version, self.flags = r.u8(), r.u8()
        self.hdr_len, self.type_off, self.type_len, self.str_off, self.str_len = [r.u32() for _ in range(5)]


KINDS = ["Int", "Ptr", "Array", "Struct", "Union", "Enum", "Fwd", "Typedef", "Volatile", "Const", "Restrict", "Func",
         "FuncProto", "Var", "DataSec", "Float", "DeclTag", "TypeTag", "Enum64"]
TSO = "InvalidTypeSectionOffset"


# src/btf/header.rs
class Header:
    def __init__(self, r, fh):
        start = checked_add(fh.hdr_len, fh.type_off, U32, TSO, "Type section start offset overflow")
        end = checked_add(start, fh.type_len, U32, TSO, "Type section end offset overflow")
        if r.cfg.add(r.offset, 12) > end:
            raise Err(TSO, "Invalid type section offset")
        self.name_offset = r.u32()
        info = r.u32()
        self.vlen = info & 0xFFFF
        k = (info & 0x1F000000) >> 24
        if not 1 <= k <= 19:
            raise Err("InvalidBTFKind", "Invalid BTF kind value: 0x%04X" % k)
        self.kind = KINDS[k - 1]
        self.kind_flag = (info & 0x80000000) != 0
        self.size_or_type = r.u32()


# src/btf/string.rs
def parse_string(r, fh, off):
    k = "InvalidStringOffset"
    start = checked_add(fh.hdr_len, fh.str_off, U32, k, "String section start offset overflow")
    end = checked_add(start, fh.str_len, U32, k, "String section end offset overflow")
    at = checked_add(start, off, U32, k, "String offset overflow")
    if at >= end:
        raise Err(k, "Invalid string offset 0x%08X" % at)
    original = r.offset
    r.offset = at
    s = ""
    while True:
        if r.cfg.add(r.offset, 1) > end:
            raise Err("InvalidString", "String at offset 0x%08X is not correctly null terminated" % at)
        try:
            c = chr(r.u8())
        except Err:
            r.offset = original
            raise
        if c == "\0":
            break
        s += c
    r.offset = original
    return s


class Type:
    """kind, header, and the fields of `Data` in the order of its declaration"""

    def __init__(self, kind, header=None, **fields):
        self.kind, self.header, self.fields = kind, header, fields
        self.__dict__.update({"f_" + k: v for k, v in fields.items()})


VOID = Type("Void")
EXTRA = {"Int": 4, "Var": 4, "DeclTag": 4}
PER = {"Array": 12, "Struct": 12, "Union": 12, "Enum": 8, "Enum64": 12, "FuncProto": 8, "DataSec": 12}


# src/btf/define_type.rs and the `Data::new` of each kind
def parse_type(r, fh, h):
    need = EXTRA.get(h.kind, 0) or h.vlen * PER.get(h.kind, 0)
    if need > 0:
        start = r.cfg.add(fh.hdr_len, fh.type_off, U32)
        end = r.cfg.add(start, fh.type_len, U32)
        if r.offset < start:
            raise Err(TSO, "Invalid type section offset")
        if r.cfg.add(r.offset, need) > end:
            raise Err(TSO, "Invalid type section offset")

    def name(off=None):
        off = h.name_offset if off is None else off
        return parse_string(r, fh, off) if off != 0 else None

    k = h.kind
    if k == "Int":
        x = r.u32()
        e = (x & 0x0F000000) >> 24
        n = name()
        return Type(k, h, name=n, size=h.size_or_type, signed=bool(e & 1), char=bool(e & 2), boolean=bool(e & 4),
                    offset=(x & 0xFF0000) >> 16, bits=x & 0xFF)
    if k in ("Ptr", "Const", "Volatile", "Restrict"):
        return Type(k, h, tid=h.size_or_type)
    if k in ("Typedef", "Fwd", "TypeTag"):
        return Type(k, h, name=name(), tid=h.size_or_type)
    if k == "Func":
        return Type(k, h, name=name(), prototype_tid=h.size_or_type)
    if k == "Float":
        return Type(k, h, name=name(), size=h.size_or_type)
    if k == "Array":
        a, b, c = r.u32(), r.u32(), r.u32()
        return Type(k, h, element_tid=a, index_tid=b, element_count=c)
    if k in ("Struct", "Union"):
        ms = []
        for _ in range(h.vlen):
            no, tid, raw = r.u32(), r.u32(), r.u32()
            nm = name(no)
            if not h.kind_flag:
                if raw % 8:
                    raise Err("InvalidOffset", "Unaligned bit offset for struct/union member with kind_flag=false")
                o = ("ByteOffset", raw // 8)
            else:
                bo, bs = raw & 0xFFFFFF, (raw >> 24) & 0xFF
                o = ("ByteOffset", bo // 8) if bs == 0 and bo % 8 == 0 else ("BitOffsetAndSize", bo, bs)
            ms.append(("Member", dict(name_offset=no, name=nm, tid=tid, offset=o)))
        return Type(k, h, name=name(), size=h.size_or_type, member_list=ms)
    if k in ("Enum", "Enum64"):
        vs = []
        for _ in range(h.vlen):
            nm = parse_string(r, fh, r.u32())
            if k == "Enum":
                v = ("Signed", r.i32()) if h.kind_flag else ("Unsigned", r.u32())
            else:
                v = ("Signed", r.i64()) if h.kind_flag else ("Unsigned", r.u64())
            vs.append(("NamedValue32" if k == "Enum" else "NamedValue64", dict(name=nm, value=v)))
        return Type(k, h, name=name(), size=h.size_or_type, named_value_list=vs, signed=h.kind_flag)
    if k == "FuncProto":
        ps = []
        for _ in range(h.vlen):
            no, tid = r.u32(), r.u32()
            ps.append(("Parameter", dict(name_offset=no, name=name(no), tid=tid)))
        return Type(k, h, parameter_list=ps, return_tid=h.size_or_type)
    if k == "Var":
        l = r.u32()
        return Type(k, h, name=name(), tid=h.size_or_type, linkage=l, linkage_type=("Global" if l else "Static",))
    if k == "DataSec":
        vs = []
        for _ in range(h.vlen):
            a, b, c = r.u32(), r.u32(), r.u32()
            vs.append(("Variable", dict(var_decl_id=a, offset=b, var_size=c)))
        return Type(k, h, name=name(), size=h.size_or_type, variable_list=vs)
    if k == "DeclTag":
        c = r.u32()
        return Type(k, h, name=name(), tid=h.size_or_type, component_index=c)
    raise AssertionError(k)


# derived Debug
def dbg_str(s):
    out = '"'
    for c in s:
        o = ord(c)
        if c in '"\\':
            out += "\\" + c
        elif c in "\n\r\t\0":
            out += {"\n": "\\n", "\r": "\\r", "\t": "\\t", "\0": "\\0"}[c]
        elif o < 32 or 127 <= o < 160 or o in (0xA0, 0xAD):
            out += "\\u{%x}" % o
        else:
            out += c
    return out + '"'


def dbg(v):
    if v is None:
        return "None"
    if isinstance(v, bool):
        return "true" if v else "false"
    if isinstance(v, int):
        return str(v)
    if isinstance(v, str):
        return dbg_str(v)
    if isinstance(v, list):
        return "[" + ", ".join(map(dbg, v)) + "]"
    if isinstance(v, tuple) and len(v) == 2 and isinstance(v[1], dict):
        return "%s { %s }" % (v[0], ", ".join(
            "%s: %s" % (k, ("Some(%s)" % dbg(x) if x is not None and k == "name" and v[0] in
                            ("Member", "Parameter", "Data") else dbg(x))) for k, x in v[1].items()))
    if isinstance(v, tuple) and len(v) == 1:
        return v[0]
    if isinstance(v, tuple):
        return "%s(%s)" % (v[0], ", ".join(map(dbg, v[1:])))
    raise AssertionError(v)


def dbg_type(t):
    if t.kind == "Void":
        return "Void"
    h = t.header
    hd = "Header { kind: %s, name_offset: %d, vlen: %d, kind_flag: %s, size_or_type: %d }" % (
        h.kind, h.name_offset, h.vlen, dbg(h.kind_flag), h.size_or_type)
    return "%s(%s { type_header: %s, data: %s })" % (t.kind, t.kind, hd, dbg(("Data", t.fields)))


# TypePathComponentIter
def alphabetic(c): return chr(c).isalpha() or c in (0xAA, 0xBA)
def numeric(c): return unicodedata.category(chr(c)) in ("Nd", "Nl", "No")


BAD = "InvalidTypePath"


class Iter:
    def __init__(self, cfg, path):
        self.cfg, self.path, self.pos, self.state = cfg, path, 0, "Start"

    def clone(self):
        c = Iter(self.cfg, self.path)
        c.pos, c.state = self.pos, self.state
        return c

    def bad(self, msg=None):
        self.state = "Error"
        raise Err(BAD, msg or "Invalid character at index %d" % self.pos)

    def next(self):
        if self.state in ("Done", "Error"):
            return None
        b = self.path
        if self.pos >= len(b):
            self.state = "Done"
            return None
        c = b[self.pos]
        if self.state == "Start":
            if c == 0x5B:
                self.pos += 1
                self.state = "InsideIndex"
                return self.index()
            if alphabetic(c) or c == 0x5F:
                self.state = "InsideName"
                return self.name()
            self.bad()
        if self.state == "InsideName":
            return self.name()
        if self.state == "InsideIndex":
            return self.index()
        if self.state == "AfterIndex":
            if c == 0x5B:
                self.pos += 1
                self.state = "InsideIndex"
                return self.index()
            if c == 0x2E:
                self.pos += 1
                self.state = "ExpectingName"
                return self.next()
            self.bad()
        if self.state == "ExpectingName":
            if alphabetic(c) or c == 0x5F:
                self.state = "InsideName"
                return self.name()
            self.bad()
        raise AssertionError

    def slice(self, a, z):
        for p in (a, z):
            if p < len(self.path) and 0x80 <= self.path[p] < 0xC0:
                raise Panic()
        return self.path[a:z]

    def name(self):
        b, start = self.path, self.pos
        while self.pos < len(b):
            c = b[self.pos]
            if alphabetic(c) or numeric(c) or c == 0x5F:
                self.pos += 1
            elif c in (0x5B, 0x2E):
                break
            else:
                self.bad()
        n = self.slice(start, self.pos)
        if self.pos >= len(b):
            self.state = "Done"
        else:
            c = b[self.pos]
            self.pos += 1
            self.state = "InsideIndex" if c == 0x5B else "ExpectingName"
        return ("Name", n)

    def index(self):
        b, start = self.path, self.pos
        while self.pos < len(b):
            c = b[self.pos]
            if numeric(c):
                self.pos += 1
            elif c == 0x5D:
                break
            else:
                self.bad()
        if self.pos >= len(b) or b[self.pos] != 0x5D:
            self.bad("Unclosed index bracket")
        s = self.slice(start, self.pos)
        if not s:
            self.bad("Empty index")
        v = 0
        for c in s:
            if not 0x30 <= c <= 0x39:
                self.bad("Invalid index value: ParseIntError { kind: InvalidDigit }")
            v = v * 10 + c - 0x30
            if v >= self.cfg.usize:
                self.bad("Invalid index value: ParseIntError { kind: PosOverflow }")
        self.pos += 1
        self.state = "AfterIndex"
        return ("Index", v)


# src/btf/offset.rs
OV = "InvalidOffset"


def add_u32(o, n):
    if o[0] == "ByteOffset":
        return ("ByteOffset", checked_add(o[1], n, U32, OV, "Byte offset addition overflow"))
    raise Err("UnexpectedBitfield", "Attempted to add a byte offset to a bitfield")


def add_offset(a, b):
    if a[0] == "ByteOffset" and b[0] == "ByteOffset":
        return ("ByteOffset", checked_add(a[1], b[1], U32, OV, "Byte offset addition overflow"))
    if a[0] == "ByteOffset":
        if a[1] * 8 >= U32:
            raise Err(OV, "Bit offset multiplication overflow")
        return ("BitOffsetAndSize", checked_add(a[1] * 8, b[1], U32, OV, "Bit offset addition overflow"), b[2])
    raise Err("UnexpectedBitfield", "Attempted to add a byte offset to a bitfield")


NAMED = {"Int", "Typedef", "Enum", "Struct", "Union", "Fwd", "Var", "Enum64", "Func", "Float", "DataSec", "TypeTag",
         "DeclTag"}
LIMIT = 300


class TypeInformation:
    def __init__(self, r):
        cfg = self.cfg = r.cfg
        fh = FileHeader(r)
        start = checked_add(fh.hdr_len, fh.type_off, U32, TSO, "Type section start offset overflow")
        end = checked_add(start, fh.type_len, cfg.usize, TSO, "Type section end offset overflow")
        r.offset = start
        gen = 1
        self.types, self.ids, self.names = {}, {}, {}
        while r.offset < end:
            h = Header(r, fh)
            t = parse_type(r, fh, h)
            tid = gen
            gen = cfg.add(gen, 1, U32)
            if t.kind in NAMED and t.f_name is not None:
                self.ids[t.f_name] = tid
                self.names[tid] = t.f_name
            self.types[tid] = t

    def id_of(self, n): return 0 if n == "void" else self.ids.get(n)
    def from_id(self, i): return VOID if i == 0 else self.types.get(i)
    def name_of(self, i): return "void" if i == 0 else self.names.get(i)
    def get(self): return "{" + ", ".join("%d: %s" % (i, dbg_type(self.types[i])) for i in sorted(self.types)) + "}"

    def pointee_tid(self, i, depth=0):
        if depth > LIMIT:
            raise Diverges()
        t = self.from_id(i)
        if t is None:
            raise Err("InvalidTypeID", "Invalid type id")
        if t.kind in ("Typedef", "Const", "Volatile", "Restrict"):
            return self.pointee_tid(t.f_tid, depth + 1)
        if t.kind == "Ptr":
            return t.f_tid
        raise Err("InvalidTypeID", "Type is not a pointer")

    def size_of(self, i, depth=0):
        if depth > LIMIT:
            raise Diverges()
        t = self.from_id(i)
        if t is None:
            raise Err("InvalidTypeID", "Invalid type id")
        if t.kind == "Ptr":
            lh = self.id_of("list_head")
            if lh is None:
                raise Err("InvalidTypeID",
                          "The `struct list_head` type, used to extract the pointer size, was not found")
            v = self.from_id(lh)
            if v is None:
                raise Err("InvalidTypeID", "The extracted `struct list_head` type ID, used to extract the pointer "
                          "size, was invalid")
            if v.kind != "Struct":
                raise Err("InvalidTypeID", "The extracted `struct list_head` type ID, used to extract the pointer "
                          "size, is not a struct type")
            return v.f_size // 2
        if t.kind == "Array":
            e = self.size_of(t.f_element_tid, depth + 1)
            return self.cfg.mul(e, t.f_element_count)
        if t.kind in ("Float", "Int", "Enum", "Enum64", "Struct", "Union", "DataSec"):
            return t.f_size
        if t.kind in ("Var", "Typedef", "Const", "Volatile", "Restrict", "TypeTag"):
            return self.size_of(t.f_tid, depth + 1)
        raise Err("NotSized", "Type %s has no size" % dbg_type(t))

    def offset_of(self, i, path):
        return self.walk(("ByteOffset", 0), i, Iter(self.cfg, path), 0)

    def walk(self, offset, tid, path, depth):
        if depth > LIMIT:
            raise Diverges()
        while True:
            saved = path.clone()
            comp = path.next()
            if comp is None:
                return (tid, offset)
            n = 0
            while True:
                t = self.from_id(tid)
                if t is None:
                    raise Err("InvalidTypeID", "Invalid type id")
                if t.kind not in ("Fwd", "Typedef", "Const", "Volatile", "Restrict"):
                    break
                tid = t.f_tid
                n += 1
                if n > LIMIT:
                    raise Diverges()
            if t.kind == "Void":
                raise Err(BAD, "The void type can't be dereferenced with a path")
            if comp[0] == "Index":
                if t.kind == "Array":
                    if comp[1] >= t.f_element_count:
                        raise Err(BAD, "Index %d is out of bounds for array of size %d" % (comp[1], t.f_element_count))
                    size = self.size_of(t.f_element_tid)
                    if comp[1] * size >= U32:
                        raise Err(BAD, "Array element offset overflow")
                    offset = add_u32(offset, comp[1] * size)
                    tid = t.f_element_tid
                elif t.kind == "Ptr":
                    raise Err(BAD, "Type is a ptr, and dereferencing it would require a read operation")
                else:
                    raise Err(BAD, "Type is not indexable")
            else:
                if t.kind not in ("Struct", "Union"):
                    raise Err(BAD, "Type is not a struct or union")
                for _, m in t.f_member_list:
                    if m["name"] is None:
                        # `member.offset().add(offset)?`: this error is not caught
                        o = add_offset(m["offset"], offset)
                        try:
                            return self.walk(o, m["tid"], saved.clone(), depth + 1)
                        except Err:
                            continue
                for _, m in t.f_member_list:
                    if m["name"] is not None and m["name"].encode() == comp[1]:
                        tid = m["tid"]
                        offset = add_offset(offset, m["offset"])
                        break
                else:
                    raise Err(BAD, "Member '%s' not found" % comp[1].decode("utf-8", "surrogateescape"))
