import Verif.Proofs.FileDialect
import Verif.Proofs.Safe
import Verif.Spec.Same

/-!
# Two files with the same content have the same types
-/

namespace Btf

open Spec

section
variable {f f' : List UInt8} {e e' : Endianness} {fh fh' : FileHeader} {pos : Nat} {dl : Dialect}

theorem stringAt_same (hs : strStart fh' = strStart fh ∧ strEnd fh' = strEnd fh)
    (hb : ∀ i, strStart fh ≤ i → i < strEnd fh → f'[i]? = f[i]?) {off : UInt32} {s : Str} (h : StringAt f fh off s) :
    StringAt f' fh' off s := by
  obtain ⟨h1, bs, h2, h3, h4, h5⟩ := h
  unfold StringAt
  rw [hs.1, hs.2]
  refine ⟨h1, bs, h2, h3, ?_, h5⟩
  rw [← h4]
  apply List.ext_getElem?
  intro i
  rw [List.getElem?_take, List.getElem?_take]
  by_cases hi : i < bs.length + 1
  · rw [if_pos hi, if_pos hi, List.getElem?_drop, List.getElem?_drop, hb _ (by omega) (by omega)]
  · rw [if_neg hi, if_neg hi]

theorem nameAt_same (hs : strStart fh' = strStart fh ∧ strEnd fh' = strEnd fh)
    (hb : ∀ i, strStart fh ≤ i → i < strEnd fh → f'[i]? = f[i]?) {off : UInt32} {s : Option Str} (h : NameAt f fh off s) :
    NameAt f' fh' off s := by
  cases s with
  | none => exact h
  | some s => exact ⟨h.1, stringAt_same hs hb h.2⟩

theorem intAt_word {v : Nat} (h : IntAt f e 4 pos v) : ∃ w, Word f e pos w ∧ v = w.toNat := by
  obtain ⟨w, hw⟩ := word_exists (e := e) h.1
  exact ⟨w, hw, by rw [h.2, hw.2]⟩

/-- The two words of a wide value. -/
theorem wide_words {v : Nat} (h : WideAt dl f e pos v) : ∃ lo hi, Word f e pos lo ∧ Word f e (pos + 4) hi := by
  have := wide_le h
  obtain ⟨lo, hlo⟩ := word_exists (e := e) (by omega : pos + 4 ≤ f.length)
  obtain ⟨hi, hhi⟩ := word_exists (e := e) (by omega : pos + 4 + 4 ≤ f.length)
  exact ⟨lo, hi, hlo, hhi⟩

theorem wide_unique {v v' : Nat} (h : WideAt dl f e pos v) (h' : WideAt dl f e pos v') : v = v' := by
  cases dl with
  | documented =>
    obtain ⟨lo, hi, h1, h2, rfl⟩ := h
    obtain ⟨lo', hi', h1', h2', rfl⟩ := h'
    rw [word_unique h1 h1', word_unique h2 h2']
  | crate => exact h.2.trans h'.2.symm

theorem wide_same {v : Nat} (he : dl = .documented ∨ e = e') (h1 : ∀ w, Word f e pos w → Word f' e' pos w)
    (h2 : ∀ w, Word f e (pos + 4) w → Word f' e' (pos + 4) w) (h : WideAt dl f e pos v) : WideAt dl f' e' pos v := by
  cases dl with
  | documented =>
    obtain ⟨lo, hi, hlo, hhi, rfl⟩ := h
    exact ⟨lo, hi, h1 _ hlo, h2 _ hhi, rfl⟩
  | crate =>
    have hd := wide_words h
    rcases he with he | rfl
    · cases he
    · obtain ⟨lo, hi, hlo, hhi⟩ := hd
      cases e with
      | little =>
        have a := wide_little.1 ⟨lo, hi, hlo, hhi, rfl⟩
        have b := wide_little.1 ⟨lo, hi, h1 _ hlo, h2 _ hhi, rfl⟩
        rw [wide_unique h a]; exact b
      | big =>
        have a := (wide_big hlo hhi).2
        have b := (wide_big (h1 _ hlo) (h2 _ hhi)).2
        rw [wide_unique h a]; exact b

theorem items_same {α : Type} {item item' : Nat → α → Prop} {size n : Nat} {xs : List α} (h : Items item size pos xs)
    (hl : xs.length = n)
    (hitem : ∀ i x, i < n → item (pos + i * size) x → item' (pos + i * size) x) : Items item' size pos xs :=
  fun i hi => hitem i _ (hl ▸ hi) (h i hi)

theorem body_same (hs : strStart fh' = strStart fh ∧ strEnd fh' = strEnd fh)
    (hb : ∀ i, strStart fh ≤ i → i < strEnd fh → f'[i]? = f[i]?) {th : Header} {v : TypeVariant}
    (he : dl = .documented ∨ e = e' ∨ isEnum64 v = false)
    (hw : ∀ i w, 4 * i + 4 ≤ bodySize th.kind th.vlen → Word f e (pos + 4 * i) w → Word f' e' (pos + 4 * i) w)
    (h : Body dl f e fh th pos v) : Body dl f' e' fh' th pos v := by
  have name : ∀ {off s}, NameAt f fh off s → NameAt f' fh' off s := nameAt_same hs hb
  have string : ∀ {off s}, StringAt f fh off s → StringAt f' fh' off s := stringAt_same hs hb
  have word : ∀ {p w} (i : Nat), p = pos + 4 * i → 4 * i + 4 ≤ bodySize th.kind th.vlen → Word f e p w → Word f' e' p w :=
    fun i hp hi h => by subst hp; exact hw i _ hi h
  have struct : ∀ {d}, bodySize th.kind th.vlen = 12 * th.vlen → StructBody f e fh th pos d → StructBody f' e' fh' th pos d := by
    rintro d hk ⟨h1, h2, h3, h4⟩
    refine ⟨name h1, h2, h3, items_same h4 h3 ?_⟩
    rintro i x hi ⟨h5, h6, h7, raw, h8, h9⟩
    exact ⟨word (3 * i) (by omega) (by omega) h5, name h6, word (3 * i + 1) (by omega) (by omega) h7, raw,
      word (3 * i + 2) (by omega) (by omega) h8, h9⟩
  cases v with
  | void => exact h
  | int hd d =>
    obtain ⟨h1, hk, w, h2, h3, h4⟩ := h
    rw [hk] at word
    exact ⟨h1, hk, w, word 0 rfl (by simp [bodySize]) h2, name h3, h4⟩
  | ptr hd d => exact h
  | const hd d => exact h
  | volatile hd d => exact h
  | restrict hd d => exact h
  | array hd d =>
    obtain ⟨h1, hk, h2, h3, h4⟩ := h
    rw [hk] at word
    exact ⟨h1, hk, word 0 rfl (by simp [bodySize]) h2, word 1 rfl (by simp [bodySize]) h3, word 2 rfl (by simp [bodySize]) h4⟩
  | struct hd d => exact ⟨h.1, h.2.1, struct (by rw [h.2.1]; rfl) h.2.2⟩
  | union hd d => exact ⟨h.1, h.2.1, struct (by rw [h.2.1]; rfl) h.2.2⟩
  | enum hd d =>
    obtain ⟨h1, hk, h2, h3, h4, h5, h6⟩ := h
    rw [hk] at word
    refine ⟨h1, hk, name h2, h3, h4, h5, items_same h6 h5 ?_⟩
    rintro i x hi ⟨off, v, h7, h8, h9, h10⟩
    obtain ⟨w, h11, rfl⟩ := intAt_word h9
    exact ⟨off, w.toNat, word (2 * i) (by omega) (by simp only [bodySize]; omega) h7, string h8,
      word (2 * i + 1) (by omega) (by simp only [bodySize]; omega) h11, h10⟩
  | enum64 hd d =>
    obtain ⟨h1, hk, h2, h3, h4, h5, h6⟩ := h
    rw [hk] at word
    refine ⟨h1, hk, name h2, h3, h4, h5, items_same h6 h5 ?_⟩
    rintro i x hi ⟨off, v, h7, h8, h9, h10⟩
    refine ⟨off, v, word (3 * i) (by omega) (by simp only [bodySize]; omega) h7, string h8, wide_same ?_ ?_ ?_ h9, h10⟩
    · rcases he with h | h | h
      · exact .inl h
      · exact .inr h
      · cases h
    · exact fun w => word (3 * i + 1) (by omega) (by simp only [bodySize]; omega)
    · exact fun w => word (3 * i + 2) (by omega) (by simp only [bodySize]; omega)
  | fwd hd d => exact ⟨h.1, h.2.1, name h.2.2.1, h.2.2.2⟩
  | typedef hd d => exact ⟨h.1, h.2.1, name h.2.2.1, h.2.2.2⟩
  | typeTag hd d => exact ⟨h.1, h.2.1, name h.2.2.1, h.2.2.2⟩
  | func hd d => exact ⟨h.1, h.2.1, name h.2.2.1, h.2.2.2⟩
  | float hd d => exact ⟨h.1, h.2.1, name h.2.2.1, h.2.2.2⟩
  | funcProto hd d =>
    obtain ⟨h1, hk, h2, h3, h4⟩ := h
    rw [hk] at word
    refine ⟨h1, hk, h2, h3, items_same h4 h3 ?_⟩
    rintro i x hi ⟨h5, h6, h7⟩
    exact ⟨word (2 * i) (by omega) (by simp only [bodySize]; omega) h5, name h6,
      word (2 * i + 1) (by omega) (by simp only [bodySize]; omega) h7⟩
  | var hd d =>
    obtain ⟨h1, hk, h2, h3, h4, h5⟩ := h
    rw [hk] at word
    exact ⟨h1, hk, name h2, h3, word 0 rfl (by simp [bodySize]) h4, h5⟩
  | dataSec hd d =>
    obtain ⟨h1, hk, h2, h3, h4, h5⟩ := h
    rw [hk] at word
    refine ⟨h1, hk, name h2, h3, h4, items_same h5 h4 ?_⟩
    rintro i x hi ⟨h6, h7, h8⟩
    exact ⟨word (3 * i) (by omega) (by simp only [bodySize]; omega) h6, word (3 * i + 1) (by omega) (by simp only [bodySize]; omega) h7,
      word (3 * i + 2) (by omega) (by simp only [bodySize]; omega) h8⟩
  | declTag hd d =>
    obtain ⟨h1, hk, h2, h3, h4⟩ := h
    rw [hk] at word
    exact ⟨h1, hk, name h2, h3, word 0 rfl (by simp [bodySize]) h4⟩

theorem same_places (hS : SameContent dl f e fh f' e' fh') : typeStart fh' = typeStart fh ∧ typeEnd fh' = typeEnd fh ∧
    strStart fh' = strStart fh ∧ strEnd fh' = strEnd fh := by
  obtain ⟨h1, h2, h3, h4, h5⟩ := hS.sections
  unfold typeEnd strEnd typeStart strStart
  rw [h1, h2, h3, h4, h5]
  exact ⟨rfl, rfl, rfl, rfl⟩

theorem records_same (hS : SameContent dl f e fh f' e' fh') {pre vs : List TypeVariant} {n : Nat}
    (hpre : Records dl f e fh (typeStart fh) pre pos) (h : Records dl f e fh pos vs n)
    (he : dl = .documented ∨ e = e' ∨ ∀ v ∈ vs, isEnum64 v = false) : Records dl f' e' fh' pos vs n := by
  obtain ⟨h1, h2, h3, h4⟩ := same_places hS
  induction h generalizing pre with
  | nil => exact .nil
  | @cons pos v mid vs next hr hrest ih =>
    have hpre' := records_append hpre (.cons hr .nil)
    refine .cons ?_ (ih hpre' (he.imp_right (Or.imp_right fun h v hv => h v (List.mem_cons_of_mem _ hv))))
    have hr0 := hr
    obtain ⟨th, hh, hb, hle, hnext⟩ := hr
    refine ⟨th, hS.headers _ _ _ _ _ hpre hr0 hh, body_same ⟨h3, h4⟩ hS.strings ?_ ?_ hb, by rw [h2]; exact hle, hnext⟩
    · exact he.imp_right (Or.imp_right fun h => h v (List.mem_cons_self ..))
    · exact fun i w => hS.bodies _ _ _ _ _ i w hpre hr0 hh

theorem decodes_same (hS : SameContent dl f e fh f' e' fh') {vs : List TypeVariant} (h : Decodes dl f vs)
    (he : dl = .documented ∨ e = e' ∨ ∀ v ∈ vs, isEnum64 v = false) : Decodes dl f' vs := by
  obtain ⟨e1, fh1, n, hp, hE, hr, hn⟩ := h
  obtain ⟨rfl, rfl⟩ := preamble_unique hp hS.preamble
  obtain ⟨h1, h2, h3, h4⟩ := same_places hS
  refine ⟨e', fh', n, hS.preamble', by rw [h2]; exact hE, by rw [h1]; exact records_same hS .nil hr he, ?_⟩
  rw [h2]; exact hn

/-! ### Written files -/

theorem wordBytes_length (e : Endianness) (w : UInt32) : (wordBytes e w).length = 4 := by cases e <;> rfl

theorem intOf_wordBytes (e : Endianness) (w : UInt32) : intOf e (wordBytes e w) = w.toNat := by
  have := w.toNat_lt
  cases e with
  | little =>
    simp only [wordBytes, intOf, List.foldr_cons, List.foldr_nil, UInt8.toNat_ofNat']
    omega
  | big =>
    simp only [wordBytes, intOf, List.foldl_cons, List.foldl_nil, UInt8.toNat_ofNat']
    omega

theorem word_at (pre post : List UInt8) (w : UInt32) : Word (pre ++ wordBytes e w ++ post) e pre.length w := by
  refine ⟨by simp [wordBytes_length], ?_⟩
  rw [List.append_assoc, List.drop_left, List.take_left' (wordBytes_length e w), intOf_wordBytes]

theorem flatMap_length (e : Endianness) (ws : List UInt32) : (ws.flatMap (wordBytes e)).length = 4 * ws.length := by
  induction ws with
  | nil => rfl
  | cons w ws ih => rw [List.flatMap_cons, List.length_append, wordBytes_length, ih, List.length_cons]; omega

theorem magic_length (e : Endianness) : (magic e).length = 2 := by cases e <;> rfl

section
variable {version flags : UInt8} {types : List UInt32} {strings : List UInt8}

/-- The header of a written file. -/
def writtenHeader (version flags : UInt8) (types : List UInt32) (strings : List UInt8) : FileHeader :=
  { version, flags, hdrLen := 24, typeOff := 0, typeLen := UInt32.ofNat (4 * types.length)
    strOff := UInt32.ofNat (4 * types.length), strLen := UInt32.ofNat strings.length }

theorem word_at' {pre post : List UInt8} {w : UInt32} {g : List UInt8} {p : Nat} (hg : g = pre ++ wordBytes e w ++ post)
    (hp : p = pre.length) : Word g e p w := by subst hg; subst hp; exact word_at pre post w

theorem preamble_fileOf (e : Endianness) :
    Preamble (fileOf e version flags types strings) e (writtenHeader version flags types strings) := by
  have hm := magic_length e
  refine ⟨?_, ?_, ?_, ?_, ?_, ?_, ?_, ?_⟩
  · unfold fileOf; simp only [List.append_assoc]
    rw [List.take_left' hm]
  · unfold fileOf; simp only [List.append_assoc]
    rw [List.getElem?_append_right (by omega), hm]; rfl
  · unfold fileOf; simp only [List.append_assoc]
    rw [List.getElem?_append_right (by omega), hm]; rfl
  · exact word_at' (pre := magic e ++ [version, flags]) (by unfold fileOf; simp only [List.append_assoc]; rfl)
      (by simp [hm])
  · exact word_at' (pre := magic e ++ [version, flags] ++ wordBytes e 24)
      (by unfold fileOf; simp only [List.append_assoc]; rfl) (by simp [hm, wordBytes_length])
  · exact word_at' (pre := magic e ++ [version, flags] ++ wordBytes e 24 ++ wordBytes e 0)
      (by unfold fileOf; simp only [List.append_assoc]; rfl) (by simp [hm, wordBytes_length])
  · exact word_at' (pre := magic e ++ [version, flags] ++ wordBytes e 24 ++ wordBytes e 0 ++ wordBytes e (UInt32.ofNat (4 * types.length)))
      (by unfold fileOf; simp only [List.append_assoc]; rfl) (by simp [hm, wordBytes_length])
  · exact word_at' (pre := magic e ++ [version, flags] ++ wordBytes e 24 ++ wordBytes e 0 ++
      wordBytes e (UInt32.ofNat (4 * types.length)) ++ wordBytes e (UInt32.ofNat (4 * types.length)))
      (by unfold fileOf; simp only [List.append_assoc]; rfl) (by simp [hm, wordBytes_length])

theorem word_fileOf (e : Endianness) {i : Nat} {w : UInt32} (h : types[i]? = some w) :
    Word (fileOf e version flags types strings) e (24 + 4 * i) w := by
  obtain ⟨hi, rfl⟩ := List.getElem?_eq_some_iff.1 h
  refine word_at' (pre := magic e ++ [version, flags] ++ wordBytes e 24 ++ wordBytes e 0 ++
      wordBytes e (UInt32.ofNat (4 * types.length)) ++ wordBytes e (UInt32.ofNat (4 * types.length)) ++
      wordBytes e (UInt32.ofNat strings.length) ++ (types.take i).flatMap (wordBytes e))
    (post := (types.drop (i + 1)).flatMap (wordBytes e) ++ strings) ?_ ?_
  · unfold fileOf
    have : types.flatMap (wordBytes e) =
        (types.take i).flatMap (wordBytes e) ++ (wordBytes e types[i] ++ (types.drop (i + 1)).flatMap (wordBytes e)) := by
      rw [← List.flatMap_cons, ← List.flatMap_append, ← List.drop_eq_getElem_cons hi, List.take_append_drop]
    rw [this]
    simp only [List.append_assoc]
  · simp only [List.length_append, flatMap_length, wordBytes_length, magic_length, List.length_take, List.length_cons, List.length_nil]
    omega

theorem strings_fileOf (e : Endianness) {i : Nat} (h : 24 + 4 * types.length ≤ i) :
    (fileOf e version flags types strings)[i]? = strings[i - (24 + 4 * types.length)]? := by
  unfold fileOf
  have hl : (magic e ++ [version, flags] ++ wordBytes e 24 ++ wordBytes e 0 ++ wordBytes e (UInt32.ofNat (4 * types.length)) ++
    wordBytes e (UInt32.ofNat (4 * types.length)) ++ wordBytes e (UInt32.ofNat strings.length) ++
    types.flatMap (wordBytes e)).length = 24 + 4 * types.length := by
    simp only [List.length_append, flatMap_length, wordBytes_length, magic_length, List.length_cons, List.length_nil]
  rw [List.getElem?_append_right (by rw [hl]; exact h), hl]

theorem records_aligned {vs : List TypeVariant} {pos n : Nat} (h : Records dl f e fh pos vs n) : 4 ∣ n - pos := by
  induction h with
  | nil => simp
  | cons h1 h2 ih =>
    have hn := records_next h2
    obtain ⟨th, -, -, -, h⟩ := h1
    have := bodySize_dvd th.kind th.vlen
    omega

/-- The same content written in both byte orders, and with other version and flags bytes. -/
theorem same_fileOf (e e' : Endianness) {version' flags' : UInt8} (ht : 24 + 4 * types.length < 2 ^ 32) :
    SameContent .documented (fileOf e version flags types strings) e (writtenHeader version flags types strings)
      (fileOf e' version' flags' types strings) e' (writtenHeader version' flags' types strings) := by
  have hstart : typeStart (writtenHeader version flags types strings) = 24 := rfl
  have hend : typeEnd (writtenHeader version flags types strings) = 24 + 4 * types.length := by
    unfold typeEnd; rw [hstart]; simp only [writtenHeader]; rw [ofNat_toNat_lt (by omega)]
  have hstr : strStart (writtenHeader version flags types strings) = 24 + 4 * types.length := by
    unfold strStart; simp only [writtenHeader]; rw [ofNat_toNat_lt (by omega)]; rfl
  have word : ∀ {i w}, 24 ≤ i → 4 ∣ i - 24 → i + 4 ≤ 24 + 4 * types.length →
      Word (fileOf e version flags types strings) e i w → Word (fileOf e' version' flags' types strings) e' i w := by
    intro i w h1 h2 h3 h
    obtain ⟨j, hj⟩ := h2
    have hi : i = 24 + 4 * j := by omega
    subst hi
    have hj : types[j]? = some types[j] := List.getElem?_eq_getElem (by omega)
    rw [word_unique h (word_fileOf e hj)]
    exact word_fileOf e' hj
  refine ⟨preamble_fileOf e, preamble_fileOf e', ⟨rfl, rfl, rfl, rfl, rfl⟩, ?_, ?_, ?_⟩
  · intro vs pos v next th hr hv hh
    have h1 := records_aligned hr
    have h2 := records_next hr
    have h3 := (record_next hv).2
    rw [hstart] at h1 h2
    rw [hend] at h3
    obtain ⟨h4, h5, info, h6, h7⟩ := hh
    exact ⟨word (by omega) (by omega) (by omega) h4, word (by omega) (by omega) (by omega) h5, info,
      word (by omega) (by omega) (by omega) h6, h7⟩
  · intro vs pos v next th i w hr hv hh hi hw
    have h1 := records_aligned hr
    have h2 := records_next hr
    rw [hstart] at h1 h2
    obtain ⟨th', hh', -, h3, -⟩ := hv
    cases headerAt_unique hh hh'
    rw [hend] at h3
    have : boundedSize .documented th.kind th.vlen = bodySize th.kind th.vlen := by cases th.kind <;> rfl
    exact word (by omega) (by omega) (by omega) hw
  · intro i h1 h2
    rw [hstr] at h1
    rw [strings_fileOf e h1, strings_fileOf e' h1]

end

end

end Btf
