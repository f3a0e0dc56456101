import Verif.Props.CHeader
import Verif.Props.Split

/-!
# Property C115: C types in files of any compiler, and in kernel modules
-/

namespace Btf.Props

open Btf Spec CTypes TypeInformation

/-- C115: no matter who has written the file, in what order, and which types share an id: if all ids with the name stand for the same
C type (up to typedefs and qualifiers), then the name is found, and the answers are those of `sizeof` and `offsetof`. -/
theorem c_named {cfg : Cfg} {R : Readable} (hR : Addressable cfg R) {ti : TypeInformation} (h : TypeInformation.new cfg R = .ok ti)
    {p : Nat} (hp : PointerSize ti p) (T : CType) (name : Str) (hv : name ≠ str "void") (hex : ∃ u, ti.nameOf u = some name)
    (hall : ∀ u, ti.nameOf u = some name → ∃ S : CType, S.Proper p ∧ S.core = T.core ∧ Represents ti u S) :
    ∃ t, ti.idOf name = some t ∧ AnswersFor cfg ti p t T := by
  obtain ⟨-, h2, -, h4⟩ := id_of_last cfg R hR ti h name
  cases hid : ti.idOf name with
  | none =>
    obtain ⟨u, hu⟩ := hex
    exact absurd hu (h2.1 hid u)
  | some t =>
    obtain ⟨S, hS, hcore, hr⟩ := hall t (h4 t hid)
    exact ⟨t, rfl, answers_core hcore (represents_answers hp hS hr)⟩

theorem declareAll_append : ∀ (Ts Us : List CType) (k : Nat),
    declareAll k (Ts ++ Us) = declareAll k Ts ++ declareAll (k + (headerParts Ts).length) Us
  | [], Us, k => rfl
  | T :: Ts, Us, k => by
    rw [List.cons_append, declareAll, declareAll, declareAll_append Ts, List.append_assoc,
      show headerParts (T :: Ts) = T.parts ++ headerParts Ts from List.flatMap_cons, List.length_append, cparts_length, Nat.add_assoc]

/-- The file of a kernel made from one header file and a module made from another one is read as one header file. -/
theorem module_read {cfg : Cfg} {R : Readable} {e : Endianness} (p : Nat) (Ts Us : List CType)
    (hT : ∀ T ∈ Ts ++ Us, T.Proper p ∧ T.Recordable) {kernel own : List Decl}
    (hk : kernel = headerProgram p Ts) (hown : own = declareAll kernel.length Us)
    (hsize : 24 + 4 * ((typeWords kernel).length + (splitWords (stringTable kernel) own).length) +
      ((stringTable kernel).length + (ownTable (stringTable kernel) own).length) < 2 ^ 32)
    (hS : Serves cfg R (merged e kernel own)) (ht : FitsTarget cfg (merged e kernel own)) :
    ∃ ti vs, TypeInformation.new cfg R = .ok ti ∧ Holds ti vs ∧ List.Forall₂ Says (headerProgram p (Ts ++ Us)) vs ∧
      (headerProgram p (Ts ++ Us)).length < 2 ^ 32 - 1 := by
  have hlen : kernel.length = 1 + (headerParts Ts).length := by
    have := congrArg List.length (declareAll_names Ts 1)
    rw [List.length_map, List.length_map] at this
    rw [hk, headerProgram, List.length_cons, this, Nat.add_comm]
  have hall : headerProgram p (Ts ++ Us) = kernel ++ own := by
    rw [hown, hlen, hk, headerProgram, headerProgram, declareAll_append]
    rfl
  have hg : ∀ d ∈ kernel ++ own, Good d ∧ d.isEnum64 = false := fun d hd => headerProgram_good hT d (hall ▸ hd)
  have hd := merged_decodes (e := e) (fun d hd => (hg d (by simp [hd])).1) (fun d hd => (hg d (by simp [hd])).1) hsize
  obtain ⟨ti, vs, h1, hh, hs⟩ := merged_read (fun d hd => (hg d (by simp [hd])).1) (fun d hd => (hg d (by simp [hd])).1) hsize
    (.inr fun d hd => (hg d hd).2) hS ht
  have hlen := decodes_length hd
  rw [List.length_append, List.length_map, List.length_map, ← List.length_append] at hlen
  rw [← hall] at hs hlen
  exact ⟨ti, vs, h1, hh, hs, by omega⟩

/-- C115: a kernel made from one header file and a module made from another one, in one file: in both, every typedef and every tag is
found, with the answers of `sizeof` and `offsetof`. -/
theorem c_module {cfg : Cfg} {R : Readable} {e : Endianness} (p : Nat) (hp : p < 2 ^ 29) (Ts Us : List CType)
    (hT : ∀ T ∈ Ts ++ Us, T.Proper p ∧ T.Recordable) (hone : OneMeaning (Ts ++ Us)) {kernel own : List Decl}
    (hk : kernel = headerProgram p Ts) (hown : own = declareAll kernel.length Us)
    (hsize : 24 + 4 * ((typeWords kernel).length + (splitWords (stringTable kernel) own).length) +
      ((stringTable kernel).length + (ownTable (stringTable kernel) own).length) < 2 ^ 32)
    (hS : Serves cfg R (merged e kernel own)) (ht : FitsTarget cfg (merged e kernel own)) :
    ∃ ti, TypeInformation.new cfg R = .ok ti ∧
      (∀ S ∈ headerParts (Ts ++ Us), ∀ name : String, S.label = str name → Ident name → str name ≠ str "void" →
        ∃ t, ti.idOf (str name) = some t ∧ AnswersFor cfg ti p t S) ∧
      ∀ name : String, Ident name → str name ≠ str "void" → str name ≠ str "list_head" →
        (∀ S ∈ headerParts (Ts ++ Us), S.label ≠ str name) → ti.idOf (str name) = none := by
  obtain ⟨ti, vs, h1, hh, hs, hlen⟩ := module_read p Ts Us hT hk hown hsize hS ht
  obtain ⟨h2, h3⟩ := c_read (cfg := cfg) p hp (Ts ++ Us) hT hone hh hs hlen
  exact ⟨ti, h1, h2, h3⟩

/-! ### Examples -/

/-- `c_module`: `struct qstr` is declared in the kernel, `struct dentry` in the module. -/
example : ∃ ti t u, TypeInformation.new Samples.dbg
      (Samples.buffer (merged .little (headerProgram 8 [qstrType]) (declareAll 8 [dentryType, .renamed (.typedef (str "qstr")) (.renamed .const qstrType)]))) = .ok ti ∧
    ti.idOf (str "dentry") = some t ∧ (∀ r, SizeOf Samples.dbg ti t r ↔ r = .ok 64) ∧
    ∃ o, (∀ r, OffsetOf Samples.dbg ti t (str "d_name.len") r ↔ r = .ok (u, o)) ∧ bitPos o = 8 * 36 := by
  obtain ⟨h1, h2, h3, h4, h5, h6, h7, h8, h9, h10⟩ := header_spelled
  obtain ⟨ti, g1, g2, -⟩ := c_module (cfg := Samples.dbg) (e := .little) 8 (by decide) [qstrType]
    [dentryType, .renamed (.typedef (str "qstr")) (.renamed .const qstrType)] someHeader_proper someHeader_one rfl
    (by rw [show (headerProgram 8 [qstrType]).length = 8 by decide +kernel])
    (by decide +kernel) (Examples.serves _ (by decide +kernel)) (Examples.fits _)
  obtain ⟨t, g3, g4, g5⟩ := g2 dentryType dentry_part "dentry" rfl dentry_ident (by decide +kernel)
  obtain ⟨u, o, k1, k2, -, -⟩ := (g5.1 "d_name.len" [.name (str "d_name"), .name (str "len")]
    ((yields_iff Samples.dbg (utf8Like_str _) _).1 (.tok (by rfl) (.tok (by rfl) (.stop rfl))))).1 ⟨.scalar 4, 8 * 36, none⟩ (by
      simp [qstrType, dentryType, CType.reach, CMembers.reach, Found.shift, h3, h4, h5, h6, h7, h8, h9])
  exact ⟨ti, t, u, g1, g3, g4, o, k1, k2⟩

/-- `struct s { int a, b; }`: declared before `int`, whose id is used twice, and before `struct list_head`. -/
def commonDecls : List Decl :=
  [.struct [115] 8 [⟨[97], 2, 0, none⟩, ⟨[98], 2, 32, none⟩], .int [105, 110, 116] 4 true false false 0 32, .struct (str "list_head") 16 []]

def commonType : CType := .record false [115] 8 (.cons [97] 0 none (.scalar 4) (.cons [98] 32 none (.scalar 4) .nil))

theorem commonDecls_good : ∀ d ∈ commonDecls, Good d := by
  obtain ⟨-, -, -, -, -, -, -, -, -, h10⟩ := header_spelled
  intro d hd
  simp only [commonDecls, List.mem_cons, List.not_mem_nil, or_false] at hd
  rcases hd with rfl | rfl | rfl <;> simp [Good, GoodMember, hasBitfield, h10]

/-- The hypotheses of `c_named` hold for the file of these declarations, in either byte order. -/
theorem common_read (e : Endianness) (hf : (encode e commonDecls).length < 2 ^ 64) :
    ∃ ti, TypeInformation.new Samples.dbg (Samples.buffer (encode e commonDecls)) = .ok ti ∧ PointerSize ti 8 ∧
      (∃ u, ti.nameOf u = some [115]) ∧
      ∀ u, ti.nameOf u = some [115] → ∃ S : CType, S.Proper 8 ∧ S.core = commonType.core ∧ Represents ti u S := by
  have h10 := header_spelled.2.2.2.2.2.2.2.2.2
  have hS := Examples.serves (encode e commonDecls) (by exact hf)
  obtain ⟨ti, vs, h1, h2, h3⟩ := round_trip commonDecls_good (by decide +kernel) (.inr (by simp [commonDecls, Decl.isEnum64])) hS (Examples.fits _)
  simp only [commonDecls, List.forall₂_cons_left_iff, List.forall₂_nil_left_iff] at h3
  obtain ⟨v1, -, k1, ⟨v2, -, k2, ⟨v3, -, k3, rfl, rfl⟩, rfl⟩, rfl⟩ := h3
  have n1 : typeName v1 = some [115] := (says_name k1).trans (by decide +kernel)
  have n2 : typeName v2 = some [105, 110, 116] := (says_name k2).trans (by decide +kernel)
  have n3 : typeName v3 = some (str "list_head") := (says_name k3).trans (by decide +kernel)
  have hlast : ∀ u : Nat, 3 < u → typeAt [v1, v2, v3] u = none := fun u hu => by simp [typeAt]; omega
  have hp : PointerSize ti 8 := by
    cases v3 <;> first | exact k3.elim | skip
    rename_i h d
    refine ⟨3, h, d, (h2.idOf_some _ _ (by decide +kernel)).2 ⟨by rw [show typeAt _ (3 : UInt32).toNat = some _ from rfl]; exact n3,
      fun u hu => by rw [hlast u hu]; simp⟩, by rw [h2.fromId]; rfl, ?_⟩
    rw [k3.2.1]
    rfl
  have hnum : Represents ti 2 (.scalar 4) := by
    cases v2 <;> first | exact k2.elim | skip
    rename_i h d
    refine ⟨_, by rw [h2.fromId]; rfl, ?_, fun h d => ⟨by simp, by simp⟩⟩
    rw [show d = _ from k2]
    rfl
  have hall : ∀ u, ti.nameOf u = some [115] → ∃ S : CType, S.Proper 8 ∧ S.core = commonType.core ∧ Represents ti u S := by
    intro u hu
    have hu1 : u = 1 := by
      rw [h2.nameOf] at hu
      apply UInt32.toNat_inj.1
      rcases hn : u.toNat with _ | _ | _ | _ | n <;> rw [hn] at hu
      · rw [show (typeAt [v1, v2, v3] 0).bind typeName = some (str "void") from rfl] at hu
        exact absurd hu (by decide +kernel)
      · rfl
      · rw [show (typeAt [v1, v2, v3] 2).bind typeName = typeName v2 from rfl, n2] at hu; simp at hu
      · rw [show (typeAt [v1, v2, v3] 3).bind typeName = typeName v3 from rfl, n3, h10] at hu; simp at hu
      · rw [hlast _ (by omega)] at hu; cases hu
    subst hu1
    refine ⟨commonType, ?_, rfl, ?_⟩
    · simp [commonType, CType.Proper, CMembers.Proper, CMembers.names, CType.size, Nat.dvd_iff_mod_eq_zero]
    · cases v1 <;> first | exact k1.elim | skip
      rename_i h d
      refine ⟨h, d, .inl (by rw [h2.fromId]; rfl), k1.2.1, ?_⟩
      obtain ⟨-, -, hm⟩ := k1
      simp only [List.forall₂_cons_left_iff, List.forall₂_nil_left_iff] at hm
      obtain ⟨m1, -, j1, ⟨m2, -, j2, rfl, rfl⟩, he⟩ := hm
      rw [he]
      exact ⟨j1.1, j1.2.2.1, j1.2.2.2, by rw [j1.2.1]; exact hnum, j2.1, j2.2.2.1, j2.2.2.2, by rw [j2.2.1]; exact hnum, trivial⟩
  exact ⟨ti, h1, hp, ⟨1, by rw [h2.nameOf]; exact n1⟩, hall⟩

/-- `c_named`. -/
example : ∃ ti t, TypeInformation.new Samples.dbg (Samples.buffer (encode .big commonDecls)) = .ok ti ∧
    ti.idOf [115] = some t ∧ AnswersFor Samples.dbg ti 8 t commonType := by
  obtain ⟨ti, h1, hp, hex, hall⟩ := common_read .big (by decide +kernel)
  obtain ⟨t, h4, h5⟩ := c_named (.inl rfl) h1 hp commonType [115] (by decide +kernel) hex hall
  exact ⟨ti, t, h1, h4, h5⟩

end Btf.Props
