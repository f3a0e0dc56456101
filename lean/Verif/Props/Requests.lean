import Verif.Proofs.RequestCount
import Verif.Proofs.Encode
import Verif.Props.Source
import Verif.Props.Parse

/-!
# Property C84: how many requests `new` makes
-/

namespace Btf.Props

open Btf Spec

/-- C84: `new` makes at most 8 requests for the header, and for each word of the type section (and of one array record
that may stick out of it) at most one request and one per byte of the string section — whatever the source answers, and
whether `new` succeeds or fails. -/
theorem new_requests_bound (cfg : Cfg) (R : Readable) (hR : Addressable cfg R) (e : Endianness) (fh : FileHeader)
    (h : Announces R e fh) :
    4 * (TypeInformation.newTrace cfg R).length ≤ 4 * 8 + (fh.typeLen.toNat + 12) * (fh.strLen.toNat + 1) := by
  obtain ⟨r, h1, h2⟩ := header_announced (cfg := cfg) h
  have hrun : TypeInformation.newP cfg (Reader.new R) = afterHeader cfg fh r := by
    rw [newP_eq]; change P.bind _ _ _ = _; unfold P.bind; rw [h1]
  unfold TypeInformation.newTrace
  rw [hrun]
  have := costs_afterHeader (cfg := cfg) (fits_of_addressable hR e fh h) r
  rw [h2.trace, show (headerRequests 8).length = 8 from rfl] at this
  exact this

/-- C84: if the source does not even deliver a header, there are at most 8 requests. -/
theorem new_requests_header (cfg : Cfg) (R : Readable) (h : ¬ ∃ e fh, Announces R e fh) :
    (TypeInformation.newTrace cfg R).length ≤ 8 := by
  unfold TypeInformation.newTrace
  rw [newP_eq]
  change (P.bind _ _ _).2.trace.length ≤ _
  unfold P.bind
  rcases header_any (cfg := cfg) (R := R) with ⟨e, fh, r', -, h2, -⟩ | ⟨k, r', h1, -, h3⟩
  · exact absurd ⟨e, fh, h2⟩ h
  · rw [h1]
    simp only []
    rcases h3 with ⟨_, -, ⟨i, place, h4, -, h5, -⟩, -⟩ | ⟨_, -, h5, -⟩
    · have hi : i < 8 := (List.getElem?_eq_some_iff.1 h4).1
      rw [h5]
      have : ∀ i < 8, (headerRequests i).length = i := by decide
      rw [List.length_cons, this i hi]; omega
    · rw [h5]; decide

/-- C84: if `new` succeeds, it has made exactly the requests for the header and for the types it reports. -/
theorem new_requests_exact (cfg : Cfg) (R : Readable) (hR : Addressable cfg R) (ti : TypeInformation)
    (h : TypeInformation.new cfg R = .ok ti) :
    (TypeInformation.newTrace cfg R).length = 8 + (ti.get.map fun x => variantRequests x.2).sum := by
  unfold TypeInformation.newTrace
  rw [new_ok] at h
  unfold TypeInformation.newT at h
  rw [newP_eq] at h ⊢
  change (P.bind _ _ _).1 = _ at h
  change (P.bind _ _ _).2.trace.length = _
  unfold P.bind at h ⊢
  rcases header_any (cfg := cfg) (R := R) with ⟨e, fh, r, h1, h2, h3⟩ | ⟨k, r', h1, -⟩
  swap
  · rw [h1] at h; cases h
  rw [h1] at h ⊢
  simp only [] at h ⊢
  have hf := fits_of_addressable hR e fh h2
  have htr : r.trace.length = 8 := by rw [h3.trace]; rfl
  unfold afterHeader at h ⊢
  cases hs : u32CheckedAdd fh.hdrLen fh.typeOff with
  | none => rw [hs] at h; cases h
  | some s =>
    rw [hs] at h
    have hst : s.toNat = typeStart fh := u32CheckedAdd_eq_some.1 hs
    have hslt := s.toNat_lt
    change (P.bind (P.lift (cfg.usizeCheckedAdd s.toNat fh.typeLen.toNat |> (okOr · .typeSectionEnd))) _ r).1 = _ at h
    change (P.bind (P.lift (cfg.usizeCheckedAdd s.toNat fh.typeLen.toNat |> (okOr · .typeSectionEnd))) _ r).2.trace.length = _
    unfold P.bind P.lift at h ⊢
    rw [hst] at h ⊢
    unfold Cfg.usizeCheckedAdd at h ⊢
    have hu := usizeMod_ge cfg
    by_cases hadd : typeStart fh + fh.typeLen.toNat < cfg.usizeMod
    swap
    · rw [if_neg hadd] at h; cases h
    rw [if_pos hadd] at h ⊢
    simp only [okOr] at h ⊢
    change (parseLoop cfg fh (typeEnd fh) (fh.typeLen.toNat + 1) 1 TypeInformation.empty { r with offset := typeStart fh }).1 = _ at h
    change (parseLoop cfg fh (typeEnd fh) (fh.typeLen.toNat + 1) 1 TypeInformation.empty { r with offset := typeStart fh }).2.trace.length = _
    by_cases hE : typeEnd fh < 2 ^ 32
    swap
    · rw [loop_overflow (by omega) (by omega) _ _ _ (by simp only []; omega)] at h; cases h
    cases hl : parseLoop cfg fh (typeEnd fh) (fh.typeLen.toNat + 1) 1 TypeInformation.empty { r with offset := typeStart fh } with
    | mk o r' =>
      rw [hl] at h
      simp only [] at h ⊢
      subst h
      obtain ⟨vs, rfl, h5, h6⟩ := count_loop hf hE _ _ _ _ (Nat.le_refl _) (by simp) _ _ hl
      simp only [] at h5 h6
      have hlen : vs.length < 2 ^ 32 - 1 := by
        rcases h6 with rfl | h6
        · decide
        · omega
      rw [(holds_build hlen).get, h5, htr]
      congr 2
      unfold numbered
      rw [List.map_map]
      have : ∀ (vs : List TypeVariant) n, vs.map variantRequests =
          (vs.zipIdx n).map ((fun x => variantRequests x.2) ∘ fun p => (UInt32.ofNat (p.2 + 1), p.1)) := by
        intro vs
        induction vs with
        | nil => intro n; rfl
        | cons v vs ih => intro n; rw [List.zipIdx_cons, List.map_cons, List.map_cons, ih (n + 1)]; rfl
      exact this vs 0

/-! ### The bound is reached, up to a constant factor -/

/-- `k` typedefs that share one name of `l` letters. -/
def sharedDecls (k l : Nat) : List Decl := List.replicate k (.typedef (List.replicate l 97) 0)

/-- The words of their records; the name is at offset 1. -/
def sharedWords (k l : Nat) : List UInt32 := (sharedDecls k l).flatMap (words fun _ => 1)

/-- Their file: `24 + 12·k + l + 2` bytes. -/
def sharedFile (k l : Nat) : List UInt8 := fileOf .little 1 0 (sharedWords k l) (0 :: List.replicate l 97 ++ [0])

theorem sharedWords_length (k l : Nat) : (sharedWords k l).length = 3 * k := by
  unfold sharedWords sharedDecls
  induction k with
  | zero => rfl
  | succ k ih => rw [List.replicate_succ, List.flatMap_cons, List.length_append, ih]; simp only [words, headWords_length]; omega

theorem sharedFile_length (k l : Nat) : (sharedFile k l).length = 24 + 12 * k + l + 2 := by
  unfold sharedFile fileOf
  simp only [List.length_append, flatMap_length, wordBytes_length, magic_length, List.length_cons, List.length_nil,
    sharedWords_length, List.length_replicate]
  omega

theorem chars_latin1 (bs : List UInt8) : chars (latin1 bs) = bs.length := by
  induction bs with
  | nil => rfl
  | cons b bs ih =>
    rw [latin1_cons]
    unfold chars at ih ⊢
    rw [List.countP_append, ih, List.length_cons]
    have key : ∀ n < 256, (String.utf8EncodeChar (Char.ofNat n)).countP (fun b => b.toNat / 64 != 2) = 1 := by decide +kernel
    rw [key _ b.toNat_lt]; omega

theorem shared_decodes {k l : Nat} (hl : 0 < l) (hsize : 24 + 12 * k + l + 2 < 2 ^ 32) :
    Decodes .documented (sharedFile k l) ((sharedDecls k l).map (variantOf fun _ => 1)) := by
  have hwl := sharedWords_length k l
  have h1 : (UInt32.ofNat (4 * (sharedWords k l).length)).toNat = 4 * (sharedWords k l).length :=
    UInt32.toNat_ofNat_of_lt' (by rw [UInt32.size]; omega)
  have hsl : (0 :: List.replicate l (97 : UInt8) ++ [0]).length = l + 2 := by simp
  have h2 : (UInt32.ofNat (0 :: List.replicate l (97 : UInt8) ++ [0]).length).toNat = l + 2 := by
    rw [hsl]; exact UInt32.toNat_ofNat_of_lt' (by rw [UInt32.size]; omega)
  have h3 : (24 : UInt32).toNat = 24 := rfl
  have h4 : (0 : UInt32).toNat = 0 := rfl
  generalize hfh : writtenHeader 1 0 (sharedWords k l) (0 :: List.replicate l (97 : UInt8) ++ [0]) = fh
  have p1 : typeStart fh = 24 := by subst hfh; simp only [typeStart, writtenHeader, h3, h4]
  have p2 : typeEnd fh = 24 + 4 * (sharedWords k l).length := by subst hfh; simp only [typeStart, typeEnd, writtenHeader, h1, h3, h4]
  have p3 : strStart fh = 24 + 4 * (sharedWords k l).length := by subst hfh; simp only [strStart, writtenHeader, h1, h3]
  have p4 : strEnd fh = 24 + 4 * (sharedWords k l).length + (l + 2) := by
    subst hfh; simp only [strStart, strEnd, writtenHeader, h1, h2, h3]
  have hdrop : (sharedFile k l).drop (24 + 4 * (sharedWords k l).length) = 0 :: List.replicate l 97 ++ [0] := by
    apply List.ext_getElem?
    intro i
    rw [List.getElem?_drop, sharedFile, strings_fileOf .little (by omega), Nat.add_sub_cancel_left]
  have hnz : (0 : UInt8) ∉ List.replicate l (97 : UInt8) := by
    intro h; have := List.eq_of_mem_replicate h; exact absurd this (by decide)
  have hnames : ∀ d ∈ sharedDecls k l, NamesStored (sharedFile k l) fh (fun _ => 1) (namesOf d) := by
    intro d hd
    rw [List.eq_of_mem_replicate hd]
    constructor
    · intro name hn
      rw [List.mem_singleton.1 hn]
      have h1' : (1 : UInt32).toNat = 1 := rfl
      refine ⟨by omega, _, by rw [List.length_replicate, h1']; omega, hnz, ?_, rfl⟩
      rw [p3, ← List.drop_drop, hdrop, h1', List.length_replicate]
      simp only [List.cons_append, List.drop_succ_cons, List.drop_zero]
      rw [List.take_of_length_le (by simp)]
    · intro name hn
      rw [List.mem_singleton.1 hn]
      constructor
      · intro h; exact absurd h (by decide)
      · intro h
        have := congrArg List.length h
        simp at this; omega
  refine ⟨.little, fh, 24 + 4 * (sharedWords k l).length, by rw [← hfh]; exact preamble_fileOf .little, by omega, ?_, p2.symm⟩
  rw [p1]
  refine records_words (fun d hd => ?_) hnames (fun j w h => word_fileOf .little h) ?_
  · rw [List.eq_of_mem_replicate hd]; exact hnz
  · rw [p2]; rfl

/-- C84: a file of `26 + 12·k + l` bytes for which `new` makes more than `k·l` requests. -/
theorem new_requests_quadratic (cfg : Cfg) (hc : cfg.width = .w64) (k l : Nat) (hl : 0 < l) (hsize : 24 + 12 * k + l + 2 < 2 ^ 32)
    (R : Readable) (hS : Serves cfg R (sharedFile k l)) :
    (sharedFile k l).length = 26 + 12 * k + l ∧ (TypeInformation.newTrace cfg R).length = 8 + k * (l + 4) := by
  refine ⟨by rw [sharedFile_length]; omega, ?_⟩
  obtain ⟨ti, h1, h2⟩ := new_complete_documented_partial hS (.inl hc) (shared_decodes hl hsize)
    (fun th d hm => by
      obtain ⟨x, hx, hx'⟩ := List.mem_map.1 hm
      rw [List.eq_of_mem_replicate hx] at hx'
      cases hx')
    (.inr fun v hv => by
      obtain ⟨x, hx, rfl⟩ := List.mem_map.1 hv
      rw [List.eq_of_mem_replicate hx]; rfl)
  rw [new_requests_exact cfg R (.inl hc) ti h1, h2.get]
  congr 1
  unfold numbered sharedDecls
  rw [List.map_map, List.map_replicate]
  have hv : variantRequests (variantOf (fun _ => 1) (.typedef (List.replicate l 97) 0)) = l + 4 := by
    have hne : List.replicate l (97 : UInt8) ≠ [] := by
      intro h; have := congrArg List.length h; simp at this; omega
    simp only [variantOf, variantRequests, nameStr, if_neg hne, nameRequests, stringRequests, chars_latin1, List.length_replicate]
    omega
  generalize variantOf (fun _ => 1) (.typedef (List.replicate l 97) 0) = v at hv
  have : ∀ k n, (((List.replicate k v).zipIdx n).map ((fun x => variantRequests x.2) ∘ fun p => (UInt32.ofNat (p.2 + 1), p.1))).sum
      = k * (l + 4) := by
    intro k
    induction k with
    | zero => intro n; simp
    | succ k ih =>
      intro n
      rw [List.replicate_succ, List.zipIdx_cons, List.map_cons, List.sum_cons, ih (n + 1), Nat.add_mul]
      simp only [Function.comp, hv]; omega
  exact this k 0

/-- The hypotheses can be met: 65536 typedefs with a name of 65536 bytes, less than a megabyte, take 4 295 229 448 requests. -/
example : (sharedFile 65536 65536).length = 851994 ∧
    (TypeInformation.newTrace Samples.dbg (readableBuffer Samples.dbg (sharedFile 65536 65536))).length = 4295229448 :=
  new_requests_quadratic Samples.dbg rfl 65536 65536 (by decide) (by decide) _
    (serves_buffer _ _ (by rw [sharedFile_length]; decide))

end Btf.Props
