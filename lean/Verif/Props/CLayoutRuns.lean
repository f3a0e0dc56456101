import Verif.Props.CLayout
import Verif.Props.CPrograms

/-!
# Property C121: the example programs, and threads
-/

namespace Btf.Props

open Btf Spec CTypes TypeInformation Examples

variable {cfg : Cfg} {os : Os} {file : OsFile} {e : Endianness} {p : Nat} {path : String} {Ss : List CSource}

/-- C121: `get-type-size` prints the size by the rules of layout, and `get-type-offset` the place by the rules. -/
theorem c_layout_printed (hp : p < 2 ^ 29) (hL : ∀ S ∈ Ss, S.Legal p) (hone : OneSource Ss)
    (hsize : 24 + 4 * (typeWords (headerProgram p (Ss.map (CSource.compile p)))).length +
      (stringTable (headerProgram p (Ss.map (CSource.compile p)))).length < 2 ^ 32)
    (hopen : os.openFile path = some file) (hf : Contains file (encode e (headerProgram p (Ss.map (CSource.compile p)))))
    (ht : FitsTarget cfg (encode e (headerProgram p (Ss.map (CSource.compile p))))) (prog name : String) (hn : Ident name)
    (hv : str name ≠ str "void") : ∀ S ∈ sourceParts Ss, S.label = str name →
      ∃ t, Spec.Ends (fun k => getTypeSize cfg os k [prog, path, name]) ⟨[.opening path, .size name t (S.size p)], .returned⟩ ∧
      ∀ typePath : String,
        (∀ cs x, AcceptedPath cfg.usizeMod (str typePath) cs → S.offset p cs = some x → ∃ u o,
          Spec.Ends (fun k => getTypeOffset cfg os k [prog, path, name, typePath])
            ⟨[.opening path, .offset name typePath u o], .returned⟩ ∧
          bitPos o = x.bits ∧ (bitWidth o).map UInt32.toNat = x.width) ∧
        ((∀ cs, AcceptedPath cfg.usizeMod (str typePath) cs → S.offset p cs = none) → ∃ r : Reason, r.kind = .InvalidTypePath ∧
          EndsWith (fun k => getTypeOffsetSays cfg os k [prog, path, name, typePath])
            ⟨[.opening path], .panicked (.error 50 ⟨.InvalidTypePath, r.message TypeVariant.debug⟩)⟩) := by
  intro S hS hl
  have hLS := legal_sourceParts hL S hS
  obtain ⟨t, h1, h2⟩ := (c_printed hp (fun T hT => by
    rw [List.mem_map] at hT
    obtain ⟨S, hS, rfl⟩ := hT
    exact ⟨compile_proper S (hL S hS), compile_recordable S (hL S hS)⟩) (compile_one hone) hsize hopen hf ht prog name hn hv).1
      (S.compile p) (by rw [compile_sourceParts]; exact List.mem_map_of_mem hS) (by rw [compile_label]; exact hl)
  refine ⟨t, by rw [← compile_size S hLS]; exact h1, fun typePath => ⟨fun cs x hcs hx => ?_, fun hx => ?_⟩⟩
  · exact (h2 typePath).1 cs (compiledAt p x) hcs (by rw [compile_reach S cs hLS, hx]; rfl)
  · exact (h2 typePath).2 fun cs hcs => by rw [compile_reach S cs hLS, hx cs hcs]; rfl

/-- C121: with the `caching` feature, whatever any number of threads do with the types: every call of `offset_of` for a type that is
laid out by the rules answers what the rules say. -/
theorem c_layout_threads {ti : TypeInformation} {t : UInt32} {S : CSource} (h : LaidOut cfg ti p t S)
    (s : CacheState) (hs : CacheState.Reachable cfg ti s) (i : Nat) (typePath : String) (r : Outcome (UInt32 × Offset))
    (he : Ended s.history i ⟨t, str typePath⟩ (.outcome r)) :
    (∀ cs x, AcceptedPath cfg.usizeMod (str typePath) cs → S.offset p cs = some x → ∃ u o, r = .ok (u, o) ∧ bitPos o = x.bits ∧
      (bitWidth o).map UInt32.toNat = x.width) ∧
    ((∀ cs, AcceptedPath cfg.usizeMod (str typePath) cs → S.offset p cs = none) → r = .err .InvalidTypePath) := by
  have hr := cache_invisible cfg ti s hs i t (str typePath) r he
  refine ⟨fun cs x hcs hx => ?_, fun hx => ?_⟩
  · obtain ⟨u, o, k1, k2, k3, -⟩ := (h.2.1 typePath cs hcs).1 x hx
    exact ⟨u, o, (k1 r).1 hr, k2, k3⟩
  · by_cases hcs : ∃ cs, AcceptedPath cfg.usizeMod (str typePath) cs
    · obtain ⟨cs, hcs⟩ := hcs
      exact ((h.2.1 typePath cs hcs).2 (hx cs hcs) r).1 hr
    · exact (h.2.2.1 typePath (fun cs hc => hcs ⟨cs, hc⟩) r).1 hr

/-! ### Examples -/

/-- `get-type-offset` prints where the bitfield `g` is, which the rules have moved to the next `int`. -/
example : ∃ u, Spec.Ends (fun k => getTypeOffset Samples.dbg
      (oneFile (encode .little (headerProgram 8 ([paddedType].map (CSource.compile 8))))) k ["get-type-offset", "btf", "s", "g"])
    ⟨[.opening "btf", .offset "s" "g" u (.bitOffsetAndSize 224 30)], .returned⟩ := by
  have hone : (str "s") = [115] ∧ str "g" = [103] := by decide +kernel
  obtain ⟨file, hopen, hf⟩ := contains_oneFile (encode .little (headerProgram 8 ([paddedType].map (CSource.compile 8))))
  obtain ⟨t, -, g⟩ := c_layout_printed (cfg := Samples.dbg) (e := .little) (p := 8) (by decide)
    (by simpa using padded_legal) padded_one (by decide +kernel) hopen hf (Examples.fits _) "get-type-offset" "s" s_ident
    (by decide +kernel) paddedType (by simp [sourceParts, paddedType, CSource.parts]) hone.1.symm
  obtain ⟨u, o, k1, k2, k3⟩ := (g "g").1 _ ⟨.scalar 4 4, 224, some 30⟩
    ((yields_iff Samples.dbg (utf8Like_str _) _).1 (.tok (by rfl) (.stop rfl))) (by rw [hone.2]; rfl)
  have ho : o = .bitOffsetAndSize 224 30 := offset_eq k2 k3
  subst ho
  exact ⟨u, k1⟩

end Btf.Props
