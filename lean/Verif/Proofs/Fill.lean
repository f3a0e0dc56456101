import Verif.Spec.Fill
import Verif.Proofs.RequestCount

/-!
# Proofs: the records fill the type section
-/

namespace Btf

open Spec Reader

section

variable {cfg : Cfg} {fh : FileHeader}

theorem shape_bytes {th : Header} {v : TypeVariant} (h : Shape th v) :
    recordBytes v = 12 + bodySize th.kind th.vlen ∧
      (bodySize th.kind th.vlen ≤ boundedSize .crate th.kind th.vlen ∨
        (∃ h' d, v = .array h' d) ∧ bodySize th.kind th.vlen = 12) := by
  cases v <;> simp only [Shape] at h
  case array =>
    obtain ⟨-, hk⟩ := h
    rw [hk]
    exact ⟨rfl, .inr ⟨⟨_, _, rfl⟩, rfl⟩⟩
  all_goals
    have hk := h.2.1
    rw [hk]
    refine ⟨?_, .inl (Nat.le_refl _)⟩
    simp only [recordBytes, bodySize]
  · rw [h.2.2.2.2.2.1]
  · rw [h.2.2.2.1]
  · rw [h.2.2.2.2.1]
  · rw [h.2.2.2.2.1]
  · rw [h.2.2.2.2.2.1]
  · rw [h.2.2.2.2]

/-- The types that the loop adds: their records reach from where it starts to the end of the type section. -/
theorem fill_loop (hf : Fits cfg fh) (hE : typeEnd fh < 2 ^ 32) (fuel : Nat) : ∀ tid ti (r : Reader),
    typeStart fh ≤ r.offset → 4 ∣ r.offset - typeStart fh → ∀ ti' r',
    parseLoop cfg fh (typeEnd fh) fuel tid ti r = (.ok ti', r') →
    ∃ vs, ti' = build tid ti vs ∧ (vs = [] ∨ r.offset + 12 * vs.length ≤ typeEnd fh) ∧
      typeEnd fh ≤ r.offset + (vs.map recordBytes).sum ∧
      (vs ≠ [] → r.offset + (vs.map recordBytes).sum ≤ typeEnd fh ∨
        r.offset + (vs.map recordBytes).sum ≤ typeEnd fh + 12 ∧ ∃ h d, vs.getLast? = some (.array h d)) := by
  induction fuel with
  | zero => intro tid ti r _ _ a r' h; cases h
  | succ fuel ih =>
    intro tid ti r hs hal ti' r' h
    unfold parseLoop at h
    change P.bind getOffset _ r = _ at h
    unfold P.bind getOffset at h
    simp only [] at h
    split at h
    swap
    · cases h
      exact ⟨[], rfl, .inl rfl, by simp only [List.map_nil, List.sum_nil]; omega, fun h => absurd rfl h⟩
    rename_i hpos
    change P.bind (Header.new cfg fh) _ r = _ at h
    unfold P.bind at h
    have h2 := (safe_header (C := fun _ => True) (cfg := cfg) hf (fun _ _ => trivial) hE hs hal (by omega)).run r rfl
    cases hh : Header.new cfg fh r with
    | mk o r1 =>
      rw [hh] at h2 h
      simp only [] at h2 h
      cases o with
      | err k => cases h
      | panic => cases h
      | nofuel => cases h
      | ok th =>
        obtain ⟨-, ⟨a, ha, hv, hoff, hle⟩ | ⟨k, hk, -⟩⟩ := h2
        swap
        · cases hk
        cases ha
        simp only [] at h
        change P.bind (parseType cfg fh th) _ r1 = _ at h
        unfold P.bind at h
        have h4 := (safe_parseType (C := fun _ => True) (cfg := cfg) (th := th) (pos := r1.offset) hf (fun _ _ => trivial) hE
          (by omega) (by omega) (by omega) hv).run r1 rfl
        cases hp : parseType cfg fh th r1 with
        | mk o r2 =>
          rw [hp] at h4 h
          simp only [] at h4 h
          cases o with
          | err k => cases h
          | panic => cases h
          | nofuel => cases h
          | ok v =>
            obtain ⟨-, ⟨a, ha, hshape, hoff2, hb⟩ | ⟨k, hk, -⟩⟩ := h4
            swap
            · cases hk
            cases ha
            simp only [] at h
            change P.bind (P.lift (cfg.u32Add tid 1)) _ r2 = _ at h
            unfold P.bind P.lift at h
            have hbd := bodySize_dvd th.kind th.vlen
            obtain ⟨hrec, hbig⟩ := shape_bytes hshape
            cases hadd : cfg.u32Add tid 1 with
            | ok tid' =>
              rw [hadd] at h
              simp only [] at h
              obtain ⟨vs, h5, h7, h8, h9⟩ := ih tid' _ r2 (by omega) (by omega) ti' r' h
              have ht := u32Add_ok hadd
              subst ht
              refine ⟨v :: vs, h5, .inr ?_, by rw [List.map_cons, List.sum_cons]; omega, fun _ => ?_⟩
              · rw [List.length_cons]
                rcases h7 with rfl | h7
                · simp only [List.length_nil]; omega
                · omega
              rw [List.map_cons, List.sum_cons]
              by_cases hvs : vs = []
              · subst hvs
                simp only [List.map_nil, List.sum_nil]
                rcases hbig with hbig | ⟨⟨h', d, rfl⟩, hbig⟩
                · left; omega
                · right; exact ⟨by omega, h', d, rfl⟩
              · rcases h9 hvs with h9 | ⟨h9, h', d, h10⟩
                · left; omega
                · right
                  refine ⟨by omega, h', d, ?_⟩
                  rw [List.getLast?_cons, h10]; rfl
            | _ => rw [hadd] at h; cases h

/-- Reading a type takes more requests than its names have characters. -/
theorem strings_requests (v : TypeVariant) : ((strings v).map chars).sum ≤ variantRequests v := by
  have hname : ∀ n : Option Str, (n.toList.map chars).sum ≤ nameRequests n := by
    intro n; cases n <;> simp [nameRequests, stringRequests]
  have hopt : ∀ {α : Type} (g : α → Option Str) (k : Nat) (l : List α),
      ((l.flatMap fun x => (g x).toList).map chars).sum ≤ (l.map fun x => k + nameRequests (g x)).sum := by
    intro α g k l
    induction l with
    | nil => exact Nat.le_refl _
    | cons a l ih =>
      have := hname (g a)
      rw [List.flatMap_cons, List.map_append, List.sum_append, List.map_cons, List.sum_cons]
      omega
  have hreq : ∀ {α : Type} (g : α → Str) (k : Nat) (l : List α),
      ((l.map g).map chars).sum ≤ (l.map fun x => k + stringRequests (g x)).sum := by
    intro α g k l
    induction l with
    | nil => exact Nat.le_refl _
    | cons a l ih =>
      rw [List.map_cons, List.map_cons, List.sum_cons, List.map_cons, List.sum_cons]
      unfold stringRequests at ih ⊢
      omega
  cases v <;> simp only [strings, variantRequests, List.map_append, List.sum_append, List.map_nil, List.sum_nil]
  case int d => have := hname d.name; omega
  case typedef d => have := hname d.name; omega
  case fwd d => have := hname d.name; omega
  case typeTag d => have := hname d.name; omega
  case func d => have := hname d.name; omega
  case float d => have := hname d.name; omega
  case var d => have := hname d.name; omega
  case dataSec d => have := hname d.name; omega
  case declTag d => have := hname d.name; omega
  case enum d => have := hname d.name; have := hreq (fun x : NamedValue32 => x.name) 2 d.namedValueList; omega
  case enum64 d => have := hname d.name; have := hreq (fun x : NamedValue64 => x.name) 2 d.namedValueList; omega
  case struct d => have := hname d.name; have := hopt (fun x : Member => x.name) 3 d.memberList; omega
  case union d => have := hname d.name; have := hopt (fun x : Member => x.name) 3 d.memberList; omega
  case funcProto d => have := hopt (fun x : Parameter => x.name) 2 d.parameterList; omega
  all_goals omega

end

end Btf
