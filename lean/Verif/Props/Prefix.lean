import Verif.Props.Source
import Verif.Props.Buffer
import Verif.Samples

/-!
# Property C77: incomplete files
-/

namespace Btf.Props

open Btf Spec

/-- `R'` can read whatever `R` can, with the same bytes. -/
def Extends (R' R : Readable) : Prop :=
  ∀ history offset len b, R.read history offset len = .ok b →
    ∃ b', R'.read history offset len = .ok b' ∧ ∀ i < len, b i = b' i

theorem faithful_split {R : Readable} : ∀ {later : List ReadEvent} {ev : ReadEvent} {earlier : List ReadEvent},
    Faithful R (later ++ ev :: earlier) → ev.failed = none → ∃ b, R.read earlier ev.offset ev.len = .ok b
  | [], ev, earlier, h, hf => by
    cases h with
    | failed h1 h2 => cases hf
    | done h1 h2 => exact ⟨_, h1⟩
  | x :: later, ev, earlier, h, hf => by
    cases h with
    | failed h1 h2 => exact faithful_split h2 hf
    | done h1 h2 => exact faithful_split h2 hf

/-- C77: if no request failed, a source that can read more gives the same result (success or error, with its message). -/
theorem new_extends (cfg : Cfg) (R R' : Readable) (hx : Extends R' R)
    (h : NoFailure (TypeInformation.newTrace cfg R)) :
    TypeInformation.newT cfg R' = TypeInformation.newT cfg R ∧
    TypeInformation.newTrace cfg R' = TypeInformation.newTrace cfg R := by
  have hp := prog_new (stricter_refl cfg) rfl
  obtain ⟨new, h1, -, -⟩ := (hp.discipline (Reader.new R)).trace
  have hnew : TypeInformation.newTrace cfg R = new := by
    unfold TypeInformation.newTrace; rw [h1]; exact List.append_nil _
  have hfaith := (new_io_errors cfg R).1
  rw [hnew] at hfaith h
  have := hp.local (Reader.new R) R' new h1 (by
    rintro later ev earlier rfl
    obtain ⟨b, hb⟩ := faithful_split hfaith (h ev (by simp))
    obtain ⟨b', hb', he⟩ := hx _ _ _ _ hb
    have e0 : earlier ++ (Reader.new R).trace = earlier := List.append_nil _
    rw [e0]
    change SameAnswer _ (R.read earlier ev.offset ev.len) _
    rw [hb, hb']
    exact he)
  unfold TypeInformation.newT TypeInformation.newTrace
  change (TypeInformation.newP cfg { Reader.new R with readable := R' }).1 = _ ∧
    (TypeInformation.newP cfg { Reader.new R with readable := R' }).2.trace = _
  rw [this]
  exact ⟨rfl, rfl⟩

theorem buffer_extends (cfg : Cfg) {f f' : List UInt8} (hp : f <+: f') (hl : f'.length < cfg.usizeMod) :
    Extends (readableBuffer cfg f') (readableBuffer cfg f) := by
  obtain ⟨g, rfl⟩ := hp
  intro history offset len b h
  rw [List.length_append] at hl
  simp only [readableBuffer] at h ⊢
  simp only [ReadableBuffer.read, sliceRange, copyFromSlice, Cfg.usizeCheckedAdd, okOr, List.length_append] at h ⊢
  generalize offset % cfg.usizeMod = start at h ⊢
  by_cases h1 : start = f.length
  · rw [if_pos h1] at h; cases h
  rw [if_neg h1] at h
  by_cases h2 : start + len < cfg.usizeMod
  swap
  · rw [if_neg h2] at h; cases h
  rw [if_pos h2] at h
  change (match (if start + len ≤ f.length then _ else _ : Res Error (List UInt8)) with | .ok bytes => _ | .err e => _ | _ => _ : Except Error (Nat → UInt8)) = _ at h
  by_cases h3 : start + len ≤ f.length
  swap
  · rw [if_neg h3] at h; cases h
  rw [if_pos h3, if_pos ⟨Nat.le_add_right _ _, h3⟩] at h
  have hlen : ((f.drop start).take (start + len - start)).length = len := by
    rw [List.length_take, List.length_drop]; omega
  change (match (if _ = len then _ else _ : Res Error (List UInt8)) with | .ok bytes => _ | .err e => _ | _ => _ : Except Error (Nat → UInt8)) = _ at h
  rw [if_pos hlen] at h
  cases h
  rw [if_neg (by omega), if_pos h2]
  have hd : ((f ++ g).drop start).take (start + len - start) = (f.drop start).take (start + len - start) := by
    rw [List.drop_append_of_le_length (by omega), List.take_append_of_le_length (by rw [List.length_drop]; omega)]
  refine ⟨fun i => ((f.drop start).take (start + len - start)).getD i 0, ?_, fun _ _ => rfl⟩
  change (match (if start + len ≤ f.length + g.length then _ else _ : Res Error (List UInt8)) with | .ok bytes => _ | .err e => _ | _ => _ : Except Error (Nat → UInt8)) = _
  rw [if_pos (by omega), if_pos ⟨Nat.le_add_right _ _, by omega⟩, hd]
  change (match (if _ = len then _ else _ : Res Error (List UInt8)) with | .ok bytes => _ | .err e => _ | _ => _ : Except Error (Nat → UInt8)) = _
  rw [if_pos hlen]

/-- C77: a file that was cut off at any point reads like the whole file, or fails with `EOF` or `InvalidOffset`. -/
theorem new_truncated (cfg : Cfg) (f : List UInt8) (hf : f.length < cfg.usizeMod) (n : Nat) :
    TypeInformation.newE cfg (readableBuffer cfg (f.take n)) = TypeInformation.newE cfg (readableBuffer cfg f) ∨
    ∃ e, TypeInformation.newE cfg (readableBuffer cfg (f.take n)) = .err e ∧ (e.kind = .EOF ∨ e.kind = .InvalidOffset) := by
  obtain ⟨h1, -, h3⟩ := new_io_errors cfg (readableBuffer cfg (f.take n))
  by_cases h : NoFailure (TypeInformation.newTrace cfg (readableBuffer cfg (f.take n)))
  · exact .inl (congrArg (Res.mapErr LoadReason.error) (new_extends cfg _ _ (buffer_extends cfg (List.take_prefix n f) hf) h).1.symm)
  · right
    simp only [NoFailure, not_forall] at h
    obtain ⟨ev, hev, hf⟩ := h
    cases hk : ev.failed with
    | none => exact absurd hk hf
    | some k =>
      have hr := (h3 ev k hev hk).1
      rw [hr]
      obtain ⟨a, b, hab⟩ := List.append_of_mem hev
      rw [hab] at h1
      have : ∃ hist, (readableBuffer cfg (f.take n)).read hist ev.offset ev.len = .error k := by
        clear hab hev h3 hr
        induction a with
        | nil =>
          cases h1 with
          | failed g _ => cases hk; exact ⟨_, g⟩
          | done g _ => cases hk
        | cons x a ih =>
          cases h1 with
          | failed _ g => exact ih g
          | done _ g => exact ih g
      obtain ⟨hist, hh⟩ := this
      exact ⟨k, rfl, buffer_errors cfg _ hist _ _ _ hh⟩

/-- C77: in particular, an incomplete file is never misread: if it is accepted, then the whole file is, with the same
types. -/
theorem new_prefix (cfg : Cfg) (f g : List UInt8) (hf : (f ++ g).length < cfg.usizeMod) (ti : TypeInformation)
    (h : TypeInformation.new cfg (readableBuffer cfg f) = .ok ti) :
    TypeInformation.new cfg (readableBuffer cfg (f ++ g)) = .ok ti := by
  have := (new_extends cfg _ _ (buffer_extends cfg (List.prefix_append f g) hf)
    ((new_io_errors cfg _).2.1 ti h)).1
  rw [new_ok, this, ← new_ok, h]

/-! ### Examples -/

namespace Examples

open Samples

/-- Cut off inside the header (`EOF`), inside a word of the type section (`InvalidOffset`), after the last byte. -/
example : TypeInformation.new dbg (buffer ((leFile zooTypes zooStrings).take 8)) = .err .EOF ∧
    TypeInformation.new dbg (buffer ((leFile zooTypes zooStrings).take 30)) = .err .InvalidOffset ∧
    TypeInformation.new dbg (buffer ((leFile zooTypes zooStrings ++ [1, 2, 3]).take (leFile zooTypes zooStrings).length)) =
      .ok zoo := by decide +kernel

/-- `new_prefix`: anything may follow the file of `zoo`. -/
example (g : List UInt8) (h : (leFile zooTypes zooStrings ++ g).length < 2 ^ 64) :
    TypeInformation.new dbg (buffer (leFile zooTypes zooStrings ++ g)) = .ok zoo :=
  new_prefix dbg _ g h zoo zoo_parsed

/-- `new_extends`: a source that can read nothing is extended by every source. -/
example (R : Readable) : Extends R ⟨fun _ _ _ => .error ⟨.IOError, []⟩⟩ := fun _ _ _ _ h => by cases h

end Examples

end Btf.Props
