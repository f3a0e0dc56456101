#!/usr/bin/env python3
"""Writes lean/Verif/Samples.lean: small BTF files used by the non-vacuity examples."""
K = dict(INT=1,PTR=2,ARRAY=3,STRUCT=4,UNION=5,ENUM=6,FWD=7,TYPEDEF=8,VOLATILE=9,CONST=10,RESTRICT=11,
         FUNC=12,FUNC_PROTO=13,VAR=14,DATASEC=15,FLOAT=16,DECL_TAG=17,TYPE_TAG=18,ENUM64=19)
class F:
    def __init__(s): s.words=[]; s.strs=b"\0"; s.vals=[]; s.names=[]
    def name(s,n):
        if n is None: return 0
        o=len(s.strs); s.strs+=n.encode()+b"\0"; return o
    def t(s,kind,name,sot,extra=(),vlen=0,flag=0,comment=""):
        no=s.name(name)
        s.words.append(([no,(flag<<31)|(K[kind]<<24)|vlen,sot]+list(extra),comment or f"{kind} {name}"))
        s.val(kind,name,no,vlen,flag,sot,extra)
    def val(s,kind,name,no,vlen,flag,sot,extra):
        C={"INT":"int","PTR":"ptr","ARRAY":"array","STRUCT":"struct","UNION":"union","FWD":"fwd","TYPEDEF":"typedef","VOLATILE":"volatile","CONST":"const","FUNC_PROTO":"funcProto","TYPE_TAG":"typeTag"}[kind]
        k={"INT":"Int","FUNC_PROTO":"FuncProto","TYPE_TAG":"TypeTag"}.get(kind,kind.capitalize())
        nm="none" if name is None else f'some (str "{name}")'
        h=f"⟨.{k}, {no}, {vlen}, {'true' if flag else 'false'}, {sot}⟩"
        b=lambda x:'true' if x else 'false'
        if kind=="INT":
            e=extra[0]; d=f"⟨{nm}, {sot}, {b(e>>24&1)}, {b(e>>25&1)}, {b(e>>26&1)}, {e>>16&255}, {e&255}⟩"
        elif kind in("PTR","CONST","VOLATILE"): d=f"⟨{sot}⟩"
        elif kind in("TYPEDEF","TYPE_TAG","FWD"): d=f"⟨{nm}, {sot}⟩"
        elif kind=="ARRAY": d=f"⟨{extra[0]}, {extra[1]}, {extra[2]}⟩"
        elif kind=="FUNC_PROTO": d=f"⟨[], {sot}⟩"
        else:
            ms=[]
            for (mo,mn,t,o) in extra:
                if flag and (o>>24 or o%8): of=f".bitOffsetAndSize {o&0xffffff} {o>>24}"
                else: of=f".byteOffset {o//8}"
                ms.append(f"⟨{mo}, "+("none" if mn is None else f'some (str "{mn}")')+f", {t}, {of}⟩")
            d=f"⟨{nm}, {sot}, [{', '.join(ms)}]⟩"
        i=len(s.words)
        s.vals.append(f"({i}, .{C} {h} {d})")
        if name is not None: s.names.append((i,name))
    def struct(s,kind,name,size,members,flag=0):
        hdr=s.name(name)
        ex=[]
        ms=[]
        for (n,tid,off) in members:
            o=s.name(n); ex+=[o,tid,off]; ms.append((o,n,tid,off))
        s.words.append(([hdr,(flag<<31)|(K[kind]<<24)|len(members),size]+ex,f"{kind} {name}"))
        s.val(kind,name,hdr,len(members),flag,size,ms)
    def lean(s,ident,doc):
        out=f"/-- {doc} -/\ndef {ident}Types : List UInt32 :=\n  ["
        rows=[]
        for i,(w,c) in enumerate(s.words):
            rows.append("   "+", ".join(hex(x) for x in w)+("," if i+1<len(s.words) else "")+f" -- {i+1}: {c}")
        out+="\n"+"\n".join(rows)+"\n  ]\n"
        out+=f"\ndef {ident}Strings : List UInt8 :=\n  ["+", ".join(str(b) for b in s.strs)+"]\n"
        out+=f"\ndef {ident} : TypeInformation where\n  idToType := ⟨[\n    "+",\n    ".join(s.vals)+"]⟩\n"
        last={n:i for i,n in s.names}
        out+="  nameToId := ⟨["+", ".join(f'(str "{n}", {last[n]})' for n in sorted(last))+"]⟩\n"
        out+="  idToName := ⟨["+", ".join(f'({i}, str "{n}")' for i,n in s.names)+"]⟩\n"
        return out
zoo=F()
zoo.t("INT","int",4,[0x01000020])
zoo.t("TYPEDEF","myint",1)
zoo.struct("STRUCT","list_head",16,[("next",4,0),("prev",4,64)])
zoo.t("PTR",None,3)
zoo.t("ARRAY",None,0,[1,1,10])
zoo.struct("UNION",None,16,[("a",1,0),("b",3,0)])
zoo.struct("STRUCT","outer",80,[("x",1,0),(None,6,64),("arr",5,192),("head",3,512)])
zoo.t("CONST",None,7)
zoo.t("TYPE_TAG","tag",7)
zoo.t("PTR",None,8)
zoo.t("VOLATILE",None,10)
zoo.t("FWD","fwd",0)
zoo.t("FUNC_PROTO",None,1)
zoo.struct("STRUCT","nest",88,[(None,7,0),("y",1,640)])
zoo.struct("STRUCT","flags",8,[("lo",1,(5<<24)|3),("hi",1,32)],flag=1)
zoo.t("TYPE_TAG","ptag",4)
bad=F()
bad.t("TYPEDEF","loop",1)
bad.t("INT","int",4,[0x20])
bad.t("ARRAY",None,0,[2,2,0xFFFFFFFF])
bad.t("ARRAY",None,0,[3,2,0xFFFFFFFF])
bad.struct("STRUCT","self",8,[(None,5,0),("x",2,0)])
bad.t("TYPEDEF","dangling",99)
bad.struct("STRUCT","bits",4,[("f",2,(5<<24)|3),(None,2,(8<<24)|8),("g",2,16)],flag=1)
bad.t("ARRAY",None,0,[2,2,0x80000000])
bad.t("ARRAY",None,0,[8,2,0x80000000])
bad.t("ARRAY",None,0,[9,2,2])
src='''import Verif.Model.TypeInfo
import Verif.Model.Buffer

/-!
# Sample files, used to show that the hypotheses of the theorems are met (generated by tools/gen_samples.py)
-/

namespace Btf.Samples

/-- 64-bit debug build. -/
def dbg : Cfg := { width := .w64, overflowChecks := true }
/-- 64-bit release build. -/
def rel : Cfg := { width := .w64, overflowChecks := false }

/-- A word, little-endian. -/
def le32 (w : UInt32) : List UInt8 :=
  [w.toUInt8, (w >>> 8).toUInt8, (w >>> 16).toUInt8, (w >>> 24).toUInt8]

/-- A little-endian BTF file with the given type and string sections. -/
def leFile (types : List UInt32) (strings : List UInt8) : List UInt8 :=
  [0x9F, 0xEB, 1, 0] ++ le32 24 ++ le32 0 ++ le32 (UInt32.ofNat (4 * types.length))
    ++ le32 (UInt32.ofNat (4 * types.length)) ++ le32 (UInt32.ofNat strings.length)
    ++ types.flatMap le32 ++ strings

/-- A byte string in memory, on a 64-bit target. -/
def buffer (bytes : List UInt8) : Readable := readableBuffer dbg bytes

'''
src+=zoo.lean("zoo","Well-behaved types.")+"\n"+bad.lean("bad","Types that are accepted by the parser but pathological.")
src+='''
theorem zoo_parsed : TypeInformation.new dbg (buffer (leFile zooTypes zooStrings)) = .ok zoo := by
  decide +kernel
theorem bad_parsed : TypeInformation.new dbg (buffer (leFile badTypes badStrings)) = .ok bad := by
  decide +kernel

example : zoo.get.length = 16 := by decide +kernel
example : bad.get.length = 10 := by decide +kernel

end Btf.Samples
'''
open("/verif/lean/Verif/Samples.lean","w").write(src)
