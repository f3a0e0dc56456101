#!/usr/bin/env python3
"""Generates lean/Verif/RepoTests.lean: the literals of the crate's own unit tests, run on the model.
The byte arrays are extracted from /repo; the expectations are transcribed from the assertions."""
import re
R='/repo/src/'
def bytes_of(f, fn):
    s=open(R+f).read(); i=s.index(f'fn {fn}()'); line=s[:i].count('\n')+1
    m=re.search(r'ReadableBuffer::new\(&\[(.*?)\]\)', s[i:], re.S)
    body=re.sub(r'//[^\n]*','',m.group(1))
    return line,[int(x,16) for x in re.findall(r'0x[0-9A-Fa-f]{2}',body)]
def w(b,o): return int.from_bytes(bytes(b[o:o+4]),'little')
KINDS=['','Int','Ptr','Array','Struct','Union','Enum','Fwd','Typedef','Volatile','Const','Restrict','Func','FuncProto','Var','DataSec','Float','DeclTag','TypeTag','Enum64']
def hdr(b):
    info=w(b,28)
    return f'{{ kind := .{KINDS[(info>>24)&31]}, nameOffset := {w(b,24)}, vlen := {info&0xffff}, kindFlag := {"true" if info>>31 else "false"}, sizeOrType := {w(b,32)} }}'
S=lambda x: f'some (str "{x}")'
T=[
('btf/array.rs','test_array','.array H { elementTid := 5, indexTid := 6, elementCount := 7 }'),
('btf/const.rs','test_const','.const H { tid := 3 }'),
('btf/data_sec.rs','test_data_sec',f'.dataSec H {{ name := {S("var_name")}, size := 4, variableList := [⟨5, 4, 8⟩, ⟨5, 8, 8⟩] }}'),
('btf/decl_tag.rs','test_decl_tag',f'.declTag H {{ name := {S("decl_tag")}, tid := 4, componentIndex := 16 }}'),
('btf/enum.rs','test_unsigned_enum',f'.enum H {{ name := {S("State")}, size := 4, signed := false, namedValueList := [⟨str "Paused", .unsigned 254⟩, ⟨str "Running", .unsigned 254⟩] }}'),
('btf/enum.rs','test_signed_enum',f'.enum H {{ name := {S("State")}, size := 4, signed := true, namedValueList := [⟨str "Paused", .signed 254⟩, ⟨str "Running", .signed 254⟩] }}'),
('btf/enum64.rs','test_unsigned_enum64',f'.enum64 H {{ name := {S("State")}, size := 8, signed := false, namedValueList := [⟨str "Paused", .unsigned 254⟩, ⟨str "Running", .unsigned 254⟩] }}'),
('btf/enum64.rs','test_signed_enum64',f'.enum64 H {{ name := {S("State")}, size := 8, signed := true, namedValueList := [⟨str "Paused", .signed 254⟩, ⟨str "Running", .signed 254⟩] }}'),
('btf/float.rs','test_float',f'.float H {{ name := {S("float")}, size := 3 }}'),
('btf/func.rs','test_fwd',f'.func H {{ name := {S("exit")}, prototypeTid := 3 }}'),
('btf/func_proto.rs','test_func_proto',f'.funcProto H {{ returnTid := 5, parameterList := [⟨1, {S("param1")}, 2⟩, ⟨8, {S("param2")}, 3⟩] }}'),
('btf/fwd.rs','test_fwd',f'.fwd H {{ name := {S("exit")}, tid := 3 }}'),
('btf/int.rs','test_int_no_encoding_options',f'.int H {{ name := {S("unsigned int")}, size := 4, signed := false, boolean := false, char := false, offset := 8, bits := 16 }}'),
('btf/int.rs','test_int_with_char_encoding_option',f'.int H {{ name := {S("char")}, size := 1, signed := false, boolean := false, char := true, offset := 0, bits := 8 }}'),
('btf/int.rs','test_int_with_signed_encoding_option',f'.int H {{ name := {S("int")}, size := 1, signed := true, boolean := false, char := false, offset := 0, bits := 8 }}'),
('btf/int.rs','test_int_with_bool_encoding_option',f'.int H {{ name := {S("bool")}, size := 1, signed := false, boolean := true, char := false, offset := 0, bits := 8 }}'),
('btf/type_tag.rs','test_type_tag',f'.typeTag H {{ name := {S("int")}, tid := 3 }}'),
('btf/var.rs','test_var',f'.var H {{ name := {S("static_var")}, tid := 5, linkage := 1, linkageType := .global }}'),
]
import glob
for f,cons in [('btf/ptr.rs','.ptr H { tid := %d }'),('btf/restrict.rs','.restrict H { tid := %d }'),('btf/volatile.rs','.volatile H { tid := %d }'),('btf/typedef.rs','.typedef H { name := some (str "%s"), tid := %d }')]:
    s=open(R+f).read()
    fn=re.search(r'fn (test_\w+)\(\)',s).group(1)
    tid=int(re.search(r'\.tid\(\), (\d+)',s).group(1))
    if 'typedef' in f:
        nm=re.search(r'Some\("([^"]+)"\)',s).group(1); T.append((f,fn,cons%(nm,tid)))
    else: T.append((f,fn,cons%tid))
out='''import Verif.Model.TypeInfo
import Verif.Model.Buffer

/-!
# Tests of the model (not proofs)

The literals of the crate's own unit tests, evaluated on the model, to check the reading of the code.
Generated by `tools/gen_tests.py`.
-/

namespace Btf.RepoTests

def dbg : Cfg := { width := .w64, overflowChecks := true }
def rel : Cfg := { width := .w64, overflowChecks := false }

/-- `new` on a `ReadableBuffer` reports exactly the type `t`, in both builds. -/
def parsesTo (bytes : List UInt8) (t : TypeVariant) : Bool :=
  [dbg, rel].all fun cfg =>
    match TypeInformation.new cfg (readableBuffer cfg bytes) with
    | .ok ti => decide (ti.get = [(1, t)])
    | _ => false

/-- `new` on a `ReadableBuffer` fails with `e`. -/
def failsWith (bytes : List UInt8) (e : ErrorKind) : Bool :=
  [dbg, rel].all fun cfg =>
    match TypeInformation.new cfg (readableBuffer cfg bytes) with
    | .err e' => decide (e' = e)
    | _ => false

'''
def fmt(b):
    x=', '.join(str(v) for v in b); o=''; 
    ws=x.split(' '); l='   '
    for t in ws:
        if len(l)+len(t)+1>108: o+=l+'\n'; l='   '
        l+=' '+t
    return o+l
for f,fn,exp in T:
    line,b=bytes_of(f,fn)
    if f=='btf/type_tag.rs': pass
    out+=f'-- src/{f}:{line}\nexample : parsesTo [\n{fmt(b)}]\n    ({exp.replace("H",hdr(b),1)}) = true := by decide +kernel\n\n'
for f,fn,e in [('btf/type_information.rs','test_type_section_offset_overflow','.InvalidTypeSectionOffset'),('btf/type_information.rs','test_type_section_end_overflow','.InvalidTypeSectionOffset')]:
    line,b=bytes_of(f,fn)
    out+=f'-- src/{f}:{line}\nexample : failsWith [\n{fmt(b)}]\n    {e} = true := by decide +kernel\n\n'
# the hand-made TypeInformation
s=open(R+'btf/type_information.rs').read()
i=s.index('fn get_test_type_info()'); j=s.index('#[test]',i); body=s[i:j]
body=re.sub(r'//[^\n]*','',body)
def parse_ins(body, name):
    res=[]
    for m in re.finditer(name+r'\s*\.insert\(',body):
        k=m.end(); d=1; st=k
        while d:
            c=body[k]
            d+= c in '([{'; d-= c in ')]}'; k+=1
        res.append(re.sub(r'\s+',' ',body[st:k-1]).strip().rstrip(','))
    return res
def split(x):
    parts=[];d=0;cur=''
    for c in x:
        if c in '([{': d+=1
        if c in ')]}': d-=1
        if c==',' and d==0: parts.append(cur.strip()); cur=''
        else: cur+=c
    if cur.strip(): parts.append(cur.strip())
    return parts
def args(x): # strip "Foo::create( ... )"
    return split(x[x.index('(')+1:x.rindex(')')])
def name(x):
    x=x.strip()
    return 'none' if x=='None' else 'some (str "%s")'%re.search(r'"([^"]*)"',x).group(1)
def off(x):
    return '.byteOffset '+re.search(r'ByteOffset\((\d+)\)',x).group(1)
def header(x):
    a=args(x); return f'⟨.{a[0].split("::")[1]}, {a[1]}, {a[2]}, {a[3]}, {a[4]}⟩'
def num(x): return str(int(x,0)) if re.match(r'^(0x[0-9a-fA-F]+|\d+)$',x) else x
def conv(v):
    m=re.match(r'TypeVariant::(\w+)\((.*)\)$',v); k=m.group(1); a=args(m.group(2)); h=header(a[0]); a=[num(x) for x in a]
    if k=='Int': return f'.int {h} {{ name := {name(a[1])}, size := {a[2]}, signed := {a[3]}, char := {a[4]}, boolean := {a[5]}, offset := {a[6]}, bits := {a[7]} }}'
    if k in('Ptr','Volatile','Const','Restrict'): return f'.{k.lower()} {h} {{ tid := {a[1]} }}'
    if k=='Array': return f'.array {h} {{ elementTid := {a[1]}, indexTid := {a[2]}, elementCount := {a[3]} }}'
    if k in('Struct','Union'):
        ms=split(a[3][a[3].index('[')+1:a[3].rindex(']')])
        ml=[]
        for x in ms:
            y=args(x); ml.append(f'⟨{y[0]}, {name(y[1])}, {y[2]}, {off(y[3])}⟩')
        return f'.{k.lower()} {h} {{ name := {name(a[1])}, size := {a[2]}, memberList := [{", ".join(ml)}] }}'
    if k in('Enum','Enum64'):
        vs=re.findall(r'String::from\("(\w+)"\), value: \w+::Unsigned\((\d+)\)',a[3])
        return f'.{k.lower()} {h} {{ name := {name(a[1])}, size := {a[2]}, namedValueList := [{", ".join(f"""⟨str "{n}", .unsigned {x}⟩""" for n,x in vs)}], signed := {a[4]} }}'
    if k=='Fwd': return f'.fwd {h} {{ name := {name(a[1])}, tid := {a[2]} }}'
    if k=='Typedef': return f'.typedef {h} {{ tid := {a[1]}, name := {name(a[2])} }}'
    if k=='Func': return f'.func {h} {{ name := {name(a[1])}, prototypeTid := {a[2]} }}'
    if k=='FuncProto': return f'.funcProto {h} {{ returnTid := {a[1]}, parameterList := [] }}'
    if k=='Var': return f'.var {h} {{ name := {name(a[1])}, tid := {a[2]}, linkage := {a[3]}, linkageType := .global }}'
    if k=='DataSec':
        vs=re.findall(r'var_decl_id: (\d+), offset: (\d+), var_size: (\d+)',a[3])
        return f'.dataSec {h} {{ name := {name(a[1])}, size := {a[2]}, variableList := [{", ".join("⟨%s, %s, %s⟩"%v for v in vs)}] }}'
    if k=='Float': return f'.float {h} {{ name := {name(a[1])}, size := {a[2]} }}'
    if k=='DeclTag': return f'.declTag {h} {{ name := {name(a[1])}, tid := {a[2]}, componentIndex := {a[3]} }}'
    if k=='TypeTag': return f'.typeTag {h} {{ name := {name(a[1])}, tid := {a[2]} }}'
    raise Exception(k)
line=s[:i].count('\n')+1
types=[split(x) for x in parse_ins(body,'id_to_type_map')]
out+=f'/-- src/btf/type_information.rs:{line}-{s[:j].count(chr(10))} -/\ndef types : List (UInt32 × TypeVariant) := [\n'
out+=',\n'.join(f'  ({t}, {conv(v)})' for t,v in types)+',\n'
k=s.index('fn test_array_element_offset_overflow()'); b2=re.sub(r'//[^\n]*','',s[k:])
out+=',\n'.join(f'  ({t}, {conv(v)})' for t,v in [split(x) for x in parse_ins(b2,'id_to_type_map')])+']\n\n'
nm=[split(x) for x in parse_ins(body,'name_to_id_map')]
im=[split(x) for x in parse_ins(body,'id_to_name_map')]
q=lambda x: re.search(r'"([^"]*)"',x).group(1)
out+='def names : List (Str × UInt32) := [\n  '+',\n  '.join(f'(str "{q(a)}", {b})' for a,b in nm)+']\n\n'
out+='def ids : List (UInt32 × Str) := [\n  '+',\n  '.join(f'({a}, str "{q(b)}")' for a,b in im)+']\n\n'
out+='''def ti : TypeInformation :=
  { idToType := types.foldl (fun m p => m.insert p.1 p.2) Map.empty
    nameToId := names.foldl (fun m p => m.insert p.1 p.2) Map.empty
    idToName := ids.foldl (fun m p => m.insert p.1 p.2) Map.empty }

/-- All calls below get the same, generous recursion bound. -/
def size (t : UInt32) : Outcome Nat := ti.sizeOf dbg 50 t
def off (t : UInt32) (p : String) : Outcome (UInt32 × Offset) := ti.offsetOf dbg 50 t (str p)

'''
def tests(fn):
    a=s.index(f'fn {fn}()'); e=s.find('#[test]',a); t=s[a:e if e>0 else len(s)]
    return s[:a].count('\n')+1, re.sub(r'\s+',' ',re.sub(r'//[^\n]*','',t))
ln,t=tests('test_size_of')
out+=f'-- src/btf/type_information.rs:{ln}\n'
for m in re.finditer(r'assert_eq!\(type_info\.size_of\((\d+)\)\.unwrap\(\), (\d+)\)|size_of\((\d+)\)\.unwrap_err\(\)\.kind\(\) == BTFErrorKind::(\w+)|assert_eq!\(type_info\.name_of\((\d+)\)\.unwrap\(\), "(\w+)"\)',t):
    if m.group(1): out+=f'example : size {m.group(1)} = .ok {m.group(2)} := by decide +kernel\n'
    elif m.group(3): out+=f'example : size {m.group(3)} = .err .{m.group(4)} := by decide +kernel\n'
    else: out+=f'example : ti.nameOf {m.group(5)} = some (str "{m.group(6)}") := by decide +kernel\n'
ln,t=tests('pointee_tid')
out+=f'\n-- src/btf/type_information.rs:{ln}\nexample : ti.pointeeTid 50 2 = .ok 6 := by decide +kernel\n'
ln,t=tests('test_offset_of')
out+=f'\n-- src/btf/type_information.rs:{ln}\n'
out+='example : ∀ t ∈ ([0, 1, 2, 8, 9, 10, 19, 15, 16, 17, 18, 20, 21] : List UInt32),\n    off t "test" = .err .InvalidTypePath ∧ off t "[0]" = .err .InvalidTypePath := by decide +kernel\n'
for m in re.finditer(r'offset_of\((\d+), "([^"]*)"\) ?\.unwrap_err\(\) ?\.kind\(\), BTFErrorKind::(\w+)|offset_of\((\d+), "([^"]*)"\)\.unwrap\(\), \((\d+), Offset::ByteOffset\((\d+)\)\)',t):
    if m.group(1): out+=f'example : off {m.group(1)} "{m.group(2)}" = .err .{m.group(3)} := by decide +kernel\n'
    else: out+=f'example : off {m.group(4)} "{m.group(5)}" = .ok ({m.group(6)}, .byteOffset {m.group(7)}) := by decide +kernel\n'
for p,u,o in [('int_value',1,128),('ptr_value',2,160),('anon_struct_value1',1,0),('anon_struct_value2',1,32),('anon_union_value1',1,64),('anon_union_value2',2,64)]:
    out+=f'example : ∀ t ∈ ([6, 11, 12, 13, 14] : List UInt32), off t "{p}" = .ok ({u}, .byteOffset {o}) := by decide +kernel\n'
ln,t=tests('test_array_element_offset_overflow')
out+=f'\n-- src/btf/type_information.rs:{ln}\nexample : off 201 "[20]" = .err .InvalidTypePath := by decide +kernel\nexample : off 201 "[0]" = .ok (200, .byteOffset 0) := by decide +kernel\n'
out+='\nend Btf.RepoTests\n'
open('/verif/lean/Verif/RepoTests.lean','w').write(out)
