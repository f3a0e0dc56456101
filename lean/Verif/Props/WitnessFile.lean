import Verif.Props.Witness
import Verif.Props.Same
import Verif.Props.Declared
import Verif.Props.Examples
import Verif.Props.LoadMessage
import Verif.Props.Requests
import Verif.Props.Prefix
import Verif.SamplesFull

/-!
# The theorems about files, applied

As `Witness.lean`, for the theorems about `new` and the example programs.
-/

set_option autoImplicit false

namespace Btf.Props.Witness

open Btf Spec TypeInformation Samples Examples

theorem zoo_serves : Serves dbg (buffer (leFile zooTypes zooStrings)) (leFile zooTypes zooStrings) := serves _ (by decide +kernel)

theorem zoo_addressable : Addressable dbg (buffer (leFile zooTypes zooStrings)) := addressable_of_target zoo_serves (fits _)

/-- `new_sound_documented_partial`: in `zoo` the only array is type 5, and the file is little-endian. -/
example : ∃ vs, Decodes .documented (leFile zooTypes zooStrings) vs ∧ Holds zoo vs :=
  new_sound_documented_partial zoo_serves (fits _) zoo_parsed
    (fun t th d h => by
      have := zoo_all (fun t v => match v with | .array _ _ => decide (t < 16) | _ => true) (by decide +kernel) h
      exact ⟨16, by simpa using this, by decide +kernel⟩)
    (.inl (by decide +kernel))

/-- `meaning_byte_order`. -/
example (vs : List TypeVariant) : Decodes .documented (zooFile .little) vs ↔ Decodes .documented (zooFile .big) vs :=
  meaning_byte_order .little .big 1 0 1 0 zooTypes zooStrings (by decide +kernel) vs

/-- `content_unique`, `new_accepts_iff`. -/
example (vs : List TypeVariant) (h : Decodes .crate (leFile zooTypes zooStrings) vs) : Holds zoo vs := by
  obtain ⟨vs', h', hh⟩ := Examples.zoo_decodes
  rwa [content_unique h h']
example : ∃ vs, Decodes .crate (leFile zooTypes zooStrings) vs := (new_accepts_iff zoo_serves (fits _)).1 ⟨_, zoo_parsed⟩

/-- `round_trip_lookup`, `encode_fits`, `declared_id`. -/
example := round_trip_lookup someDecls_good (by decide +kernel) (.inl rfl) (serves (encode .little someDecls) (by decide +kernel)) (fits _)
example : FitsTarget ⟨.w32, true⟩ (encode .big someDecls) := encode_fits (by decide +kernel)
example := declared_id someDecls_good (by decide +kernel) (.inl rfl) (serves (encode .little someDecls) (by decide +kernel)) (fits _)

/-- `new_truncated`, `buffer_extends`. -/
example (n : Nat) := new_truncated dbg (leFile zooTypes zooStrings) (by decide +kernel) n
example := buffer_extends dbg (f := (leFile zooTypes zooStrings).take 100) (f' := leFile zooTypes zooStrings) (List.take_prefix ..)
  (by decide +kernel)

/-- `new_requests_exact`, `new_requests_bound`, `new_requests_header`. -/
theorem zoo_preamble : Preamble (leFile zooTypes zooStrings) .little ⟨1, 0, 24, 0, 352, 352, 84⟩ :=
  ⟨by decide +kernel, by decide +kernel, by decide +kernel, by decide +kernel, by decide +kernel, by decide +kernel, by decide +kernel,
    by decide +kernel⟩
theorem zoo_announces {e : Endianness} {fh : FileHeader} (h : Announces (buffer (leFile zooTypes zooStrings)) e fh) :
    fh = ⟨1, 0, 24, 0, 352, 352, 84⟩ :=
  (announces_unique h ((announces_iff zoo_serves).2 zoo_preamble)).2
example : 4 * (newTrace dbg (buffer (leFile zooTypes zooStrings))).length ≤ 4 * 8 + (352 + 12) * (84 + 1) :=
  new_requests_bound dbg _ zoo_addressable .little _ ((announces_iff zoo_serves).2 zoo_preamble)
example : (newTrace dbg (buffer [0x7F, 0x45, 0x4C, 0x46])).length ≤ 8 := by
  refine new_requests_header dbg _ ?_
  rintro ⟨e, fh, h⟩
  have h := (announces_iff (cfg := dbg) (serves [0x7F, 0x45, 0x4C, 0x46] (by decide))).1 h
  exact absurd h.magic (by cases e <;> decide)
example := new_requests_exact dbg _ zoo_addressable zoo zoo_parsed

/-- `load_error_any`, `new_first_flaw_iff`, `first_flaw_facts`: a kind that does not exist. -/
theorem flawed_serves : Serves dbg (buffer (twoRecords [0, 0x14000000, 0])) (twoRecords [0, 0x14000000, 0]) := serves _ (by decide +kernel)
theorem flawed_error : TypeInformation.newE dbg (buffer (twoRecords [0, 0x14000000, 0])) =
    .err ⟨.InvalidBTFKind, str "Invalid BTF kind value: 0x0014"⟩ := by decide +kernel
example : ∃ q, FirstFlaw (buffer (twoRecords [0, 0x14000000, 0])) (twoRecords [0, 0x14000000, 0]) q ∧
    LoadSays q ⟨.InvalidBTFKind, str "Invalid BTF kind value: 0x0014"⟩ :=
  (new_first_flaw_iff flawed_serves (fits _) (buffer_sameWords _ _) _).1 flawed_error
example (q : LoadReason) (h : FirstFlaw (buffer (twoRecords [0, 0x14000000, 0])) (twoRecords [0, 0x14000000, 0]) q) :=
  first_flaw_facts flawed_serves (fits _) (buffer_sameWords _ _) h
example := load_error_any (addressable_of_target flawed_serves (fits _)) flawed_error

/-- `debug_specified`, `dump_determines`. -/
example := debug_specified zoo_serves (fits _) zoo_parsed
example (cfg : Cfg) (f : List UInt8) (R : Readable) (ti : TypeInformation) (hS : Serves cfg R f) (ht : FitsTarget cfg f)
    (h : TypeInformation.new cfg R = .ok ti) (he : debugMap ti.get = debugMap zoo.get) : ti = zoo :=
  dump_determines hS ht zoo_serves (fits _) h zoo_parsed he

/-- `dump_btf_iff`, `dump_btf_output`. -/
example (r : Run) := (contains_oneFile (leFile zooTypes zooStrings)).elim fun _ h =>
  dump_btf_iff (cfg := dbg) (prog := "dump-btf") h.1 h.2 (fits _) r
example (q : String → String) (out : Str) := (contains_oneFile (leFile zooTypes zooStrings)).elim fun _ h =>
  dump_btf_output (cfg := dbg) (prog := "dump-btf") h.1 h.2 (fits _) q out

/-- `new_short`, `new_short_returns`, `new_file_32_types`. -/
example : TypeInformation.newE ⟨.w32, true⟩ (buffer (leFile zooTypes zooStrings)) =
    TypeInformation.newE ⟨.w64, true⟩ (buffer (leFile zooTypes zooStrings)) := by
  refine (new_short (short_serves zoo_serves) (by decide +kernel) true fun e fh h ha => ?_).1
  rw [zoo_announces h] at ha
  exact absurd ha.2.2 (by decide +kernel)
example := new_short_returns (short_serves zoo_serves) (by decide +kernel)
example (vs : List TypeVariant) := new_file_32_types true _ _ zoo_serves (by decide +kernel) vs

end Btf.Props.Witness
