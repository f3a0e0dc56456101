import Verif.Spec.Encode

/-!
# Split BTF: the BTF of kernel modules

The BTF of a kernel module (`/sys/kernel/btf/<module>`) continues that of the kernel, its base: its type ids go on where those of
the base end, and so do the offsets of strings. Names that the base has are not stored again.
-/

namespace Btf.Spec

open Btf

/-- The string table has the name. -/
def stored (table : List UInt8) (name : Name) : Bool := (List.range table.length).any fun i => (name ++ [0]).isPrefixOf (table.drop i)

/-- The names that the module has but the base has not. -/
def ownNames (base : List UInt8) (ds : List Decl) : List Name :=
  (ds.flatMap namesOf).filter fun name => !(name.isEmpty || stored base name)

/-- The string table of the module: these names, each followed by a NUL. There is no empty string at the start. -/
def ownTable (base : List UInt8) (ds : List Decl) : List UInt8 := (ownNames base ds).flatMap (· ++ [0])

/-- The offset that stands for a name: 0, a place of the base, or a place of the module's own table behind the base. -/
def splitOffset (base own : List UInt8) (name : Name) : UInt32 :=
  if name.isEmpty then 0
  else if stored base name then nameOffset base name
  else UInt32.ofNat (base.length + (nameOffset own name).toNat)

/-- The words of the records of a module. -/
def splitWords (base : List UInt8) (ds : List Decl) : List UInt32 := ds.flatMap (words (splitOffset base (ownTable base ds)))

/-- The BTF of a module with the declarations `ds`, whose base has the string table `base`. -/
def encodeSplit (e : Endianness) (base : List UInt8) (ds : List Decl) : List UInt8 :=
  fileOf e 1 0 (splitWords base ds) (ownTable base ds)

/-- The BTF of a kernel with the declarations `kernel` and that of a module of this kernel, put into one file: the two type sections one
after the other, then the two string sections one after the other. -/
def merged (e : Endianness) (kernel own : List Decl) : List UInt8 :=
  fileOf e 1 0 (typeWords kernel ++ splitWords (stringTable kernel) own) (stringTable kernel ++ ownTable (stringTable kernel) own)

/-- The names of the values of an enumeration. -/
def valueNames : Decl → List Name
  | .enum _ _ _ vs | .enum64 _ _ _ vs => vs.map Prod.fst
  | _ => []

/-- What a string table has at an offset, if offset 0 stands for "no name". -/
def readName (table : List UInt8) (off : UInt32) : Option Str :=
  if off = 0 then none else some (latin1 ((table.drop off.toNat).takeWhile (· ≠ 0)))

end Btf.Spec
