import Verif.Props.CHeader
import Verif.Props.Cache
import Verif.Props.Complaint

/-!
# C113: from a C header file to what is printed
-/

namespace Btf.Props

open Btf Spec CTypes TypeInformation Examples

/-- C113: with the `caching` feature, whatever any number of threads do with the types: every call of `offset_of` for the type that
comes to an end gives the answer of `offsetof`. -/
theorem c_threads {cfg : Cfg} {ti : TypeInformation} {p : Nat} {t : UInt32} {T : CType} (h : AnswersFor cfg ti p t T)
    (s : CacheState) (hs : CacheState.Reachable cfg ti s) (i : Nat) (path : String) (cs : List PathComponent)
    (hp : AcceptedPath cfg.usizeMod (str path) cs) (r : Outcome (UInt32 × Offset))
    (he : Ended s.history i ⟨t, str path⟩ (.outcome r)) :
    (∀ x, T.reach p cs = some x → ∃ u o, r = .ok (u, o) ∧ bitPos o = x.bits ∧ (bitWidth o).map UInt32.toNat = x.width ∧
      ∀ n, SizeOf cfg ti u n ↔ n = .ok (x.type.size p)) ∧
    (T.reach p cs = none → r = .err .InvalidTypePath) := by
  have hr := cache_invisible cfg ti s hs i t (str path) r he
  obtain ⟨h1, h2⟩ := h.2.1 path cs hp
  refine ⟨fun x hx => ?_, fun hx => (h2 hx r).1 hr⟩
  obtain ⟨u, o, k1, k2, k3, k4, -⟩ := h1 x hx
  exact ⟨u, o, (k1 r).1 hr, k2, k3, k4⟩

/-- C113: and with a text that is not a path, `InvalidTypePath`. -/
theorem c_threads_text {cfg : Cfg} {ti : TypeInformation} {p : Nat} {t : UInt32} {T : CType} (h : AnswersFor cfg ti p t T)
    (s : CacheState) (hs : CacheState.Reachable cfg ti s) (i : Nat) (path : String)
    (hp : ∀ cs, ¬ AcceptedPath cfg.usizeMod (str path) cs) (r : Outcome (UInt32 × Offset))
    (he : Ended s.history i ⟨t, str path⟩ (.outcome r)) : r = .err .InvalidTypePath :=
  (h.2.2.1 path hp r).1 (cache_invisible cfg ti s hs i t (str path) r he)

variable {cfg : Cfg} {e : Endianness} {p : Nat} {Ts : List CType} {os : Os} {path : String} {file : OsFile}

/-- C113: what the example programs do with the file of a header: for a name in it, `get-type-size` prints `sizeof`, and
`get-type-offset` prints `offsetof` for every path that C compiles, and complains about `InvalidTypePath` for every other text; for
any other name both complain that there is none. -/
theorem c_printed (hp : p < 2 ^ 29) (hT : ∀ T ∈ Ts, T.Proper p ∧ T.Recordable) (hone : OneMeaning Ts)
    (hsize : 24 + 4 * (typeWords (headerProgram p Ts)).length + (stringTable (headerProgram p Ts)).length < 2 ^ 32)
    (hopen : os.openFile path = some file) (hf : Contains file (encode e (headerProgram p Ts)))
    (ht : FitsTarget cfg (encode e (headerProgram p Ts))) (prog name : String) (hn : Ident name) (hv : str name ≠ str "void") :
    (∀ S ∈ headerParts Ts, S.label = str name →
      ∃ t, Spec.Ends (fun k => getTypeSize cfg os k [prog, path, name]) ⟨[.opening path, .size name t (S.size p)], .returned⟩ ∧
      ∀ typePath : String,
        (∀ cs x, AcceptedPath cfg.usizeMod (str typePath) cs → S.reach p cs = some x → ∃ u o,
          Spec.Ends (fun k => getTypeOffset cfg os k [prog, path, name, typePath])
            ⟨[.opening path, .offset name typePath u o], .returned⟩ ∧
          bitPos o = x.bits ∧ (bitWidth o).map UInt32.toNat = x.width) ∧
        ((∀ cs, AcceptedPath cfg.usizeMod (str typePath) cs → S.reach p cs = none) → ∃ r : Reason, r.kind = .InvalidTypePath ∧
          EndsWith (fun k => getTypeOffsetSays cfg os k [prog, path, name, typePath])
            ⟨[.opening path], .panicked (.error 50 ⟨.InvalidTypePath, r.message TypeVariant.debug⟩)⟩)) ∧
    (str name ≠ str "list_head" → (∀ S ∈ headerParts Ts, S.label ≠ str name) →
      EndsWith (fun k => getTypeSizeSays cfg os k [prog, path, name]) ⟨[.opening path], .panicked (.nothing 48)⟩ ∧
      ∀ typePath, EndsWith (fun k => getTypeOffsetSays cfg os k [prog, path, name, typePath])
        ⟨[.opening path], .panicked (.nothing 49)⟩) := by
  obtain ⟨ti, h1, h2, h3⟩ := c_header p hp Ts hT hone hsize (serves_file cfg hf) ht
  refine ⟨fun S hS hl => ?_, fun hlh hno => ?_⟩
  · obtain ⟨t, g1, g2, g3, g4, -⟩ := h2 S hS name hl hn hv
    refine ⟨t, (get_type_size_answers os t _).2 ⟨file, ti, hopen, h1, g1, (g2 _).2 rfl⟩, fun typePath => ?_⟩
    refine ⟨fun cs x hcs hx => ?_, fun hno => ?_⟩
    · obtain ⟨k1, -⟩ := g3 typePath cs hcs
      obtain ⟨u, o, m1, m2, m3, -⟩ := k1 x hx
      exact ⟨u, o, (get_type_offset_answers os typePath u o).2 ⟨file, ti, t, hopen, h1, g1, (m1 _).2 rfl⟩, m2, m3⟩
    · have hfails : OffsetOf cfg ti t (str typePath) (.err .InvalidTypePath) := by
        by_cases hac : ∃ cs, AcceptedPath cfg.usizeMod (str typePath) cs
        · obtain ⟨cs, hcs⟩ := hac
          exact ((g3 typePath cs hcs).2 (hno cs hcs) _).2 rfl
        · exact (g4 typePath (fun cs hcs => hac ⟨cs, hcs⟩) _).2 rfl
      obtain ⟨-, n, hn'⟩ := hfails
      have hsame := told_same cfg ti n t (str typePath)
      have hto := hsame.1
      rw [show offsetOf cfg ti n t (str typePath) = _ from hn'] at hto
      cases hr : offsetOfT cfg ti n t (str typePath) with
      | err r =>
        rw [hr] at hto
        have hk : r.kind = .InvalidTypePath := by
          simp only [Told.outcome] at hto
          injection hto
        refine ⟨r, hk, (get_type_offset_complains os _).2 (.inr ⟨file, hopen, .inr (.inr ⟨ti, h1, .inr ⟨t, g1, .inl
          ⟨r, ⟨n, hr⟩, ?_⟩⟩⟩)⟩)⟩
        rw [hk]
      | ok a => rw [hr] at hto; cases hto
      | panic => rw [hr] at hto; cases hto
      | nofuel => rw [hr] at hto; cases hto
  · have hid := h3 name hn hv hlh hno
    exact ⟨(get_type_size_complains os _).2 (.inr ⟨file, hopen, .inr (.inr ⟨ti, h1, .inl ⟨hid, rfl⟩⟩)⟩),
      fun typePath => (get_type_offset_complains os _).2 (.inr ⟨file, hopen, .inr (.inr ⟨ti, h1, .inl ⟨hid, rfl⟩⟩)⟩)⟩

/-- The README of the crate, for a file with the types of `someHeader`: `dentry => d_name.len: (.., ByteOffset(36))`. -/
example : ∃ u, Spec.Ends (fun k => getTypeOffset Samples.dbg (oneFile (encode .little (headerProgram 8 someHeader))) k
      ["get-type-offset", "btf", "dentry", "d_name.len"])
    ⟨[.opening "btf", .offset "dentry" "d_name.len" u (.byteOffset 36)], .returned⟩ := by
  obtain ⟨h1, h2, h3, h4, h5, h6, h7, h8, h9, h10⟩ := header_spelled
  obtain ⟨file, hopen, hf⟩ := contains_oneFile (encode .little (headerProgram 8 someHeader))
  obtain ⟨t, -, g⟩ := (c_printed (cfg := Samples.dbg) (e := .little) (p := 8) (by decide) someHeader_proper someHeader_one
    (by decide +kernel) hopen hf (Examples.fits _) "get-type-offset" "dentry" dentry_ident (by decide +kernel)).1 dentryType
    dentry_part rfl
  obtain ⟨u, o, k1, k2, k3⟩ := (g "d_name.len").1 [.name (str "d_name"), .name (str "len")] ⟨.scalar 4, 8 * 36, none⟩
    ((yields_iff Samples.dbg (utf8Like_str _) _).1 (.tok (by rfl) (.tok (by rfl) (.stop rfl)))) (by
      simp [qstrType, dentryType, CType.reach, CMembers.reach, Found.shift, h3, h4, h5, h6, h7, h8, h9])
  obtain ⟨c, rfl, hc⟩ := byte_offset k2 k3
  have : c = 36 := UInt32.toNat_inj.1 (by
    show c.toNat = 36
    simp only at hc
    omega)
  rw [← this]
  exact ⟨u, k1⟩

end Btf.Props
