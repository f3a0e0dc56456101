import Verif.Spec.Spelling
import Verif.Props.Search
import Verif.Props.Cost
import Verif.Props.Relabel
import Verif.Props.Record

/-!
# Property C108: how a path is spelled does not matter
-/

namespace Btf.Props

open Btf Spec TypeInformation

/-- C108: two texts with the same components have the same answers, on every type graph. -/
theorem offset_of_spelling (cfg : Cfg) (ti : TypeInformation) (t : UInt32) (s s' : String) (cs : List PathComponent)
    (h : AcceptedPath cfg.usizeMod (str s) cs) (h' : AcceptedPath cfg.usizeMod (str s') cs)
    (r : Outcome (UInt32 × Offset)) : OffsetOf cfg ti t (str s) r ↔ OffsetOf cfg ti t (str s') r := by
  rw [offset_of_search cfg ti t s cs h, offset_of_search cfg ti t s' cs h']

/-- C108: and two texts that are not paths, but have the same components before what is wrong, fail alike. -/
theorem offset_of_spelling_breaks (cfg : Cfg) (ti : TypeInformation) (t : UInt32) (s s' : String) (cs : List PathComponent)
    (h : Breaks cfg.usizeMod (str s) cs) (h' : Breaks cfg.usizeMod (str s') cs)
    (r : Outcome (UInt32 × Offset)) : OffsetOf cfg ti t (str s) r ↔ OffsetOf cfg ti t (str s') r := by
  rw [offset_of_search_breaks cfg ti t s cs h, offset_of_search_breaks cfg ti t s' cs h']

/-! ### The plain spelling -/

theorem numeral_digits (n : Nat) : numeral n ≠ [] ∧ (∀ d ∈ numeral n, Digit d) ∧ decimal (numeral n) = n := by
  induction n using Nat.strongRecOn with
  | _ n ih =>
    rw [numeral]
    split
    · refine ⟨by simp, fun d hd => ?_, ?_⟩
      · obtain rfl := List.mem_singleton.1 hd
        rw [Digit, UInt8.toNat_ofNat', Nat.mod_eq_of_lt (by omega)]
        omega
      · simp only [decimal, List.foldl_cons, List.foldl_nil]
        rw [UInt8.toNat_ofNat', Nat.mod_eq_of_lt (by omega)]
        omega
    · obtain ⟨h1, h2, h3⟩ := ih (n / 10) (by omega)
      refine ⟨by simp, fun d hd => ?_, ?_⟩
      · rcases List.mem_append.1 hd with hd | hd
        · exact h2 d hd
        · obtain rfl := List.mem_singleton.1 hd
          rw [Digit, UInt8.toNat_ofNat', Nat.mod_eq_of_lt (by omega)]
          omega
      · simp only [decimal] at h3 ⊢
        rw [List.foldl_append, h3]
        simp only [List.foldl_cons, List.foldl_nil]
        rw [UInt8.toNat_ofNat', Nat.mod_eq_of_lt (by omega)]
        omega

theorem spellRest_parts {limit : Nat} : ∀ {cs : List PathComponent}, (∀ n, .name n ∈ cs → IsName n) →
    (∀ i, .index i ∈ cs → i < limit) → Parts limit (spellRest cs) cs
  | [], _, _ => .nil
  | .name n :: cs, h, h' => .name (h n (by simp))
      (spellRest_parts (fun n hn => h n (by simp [hn])) (fun i hi => h' i (by simp [hi])))
  | .index i :: cs, h, h' => .index ⟨(numeral_digits i).1, (numeral_digits i).2.1, (numeral_digits i).2.2, h' i (by simp)⟩
      (spellRest_parts (fun n hn => h n (by simp [hn])) (fun i hi => h' i (by simp [hi])))

/-- C108: the plain spelling of names and numbers is a path, with these components. -/
theorem spell_path {limit : Nat} {cs : List PathComponent} (h : ∀ n, .name n ∈ cs → IsName n)
    (h' : ∀ i, .index i ∈ cs → i < limit) : Path limit (spell cs) cs := by
  match cs with
  | [] => exact .empty
  | .name n :: cs =>
    exact .name (h n (by simp)) (spellRest_parts (fun n hn => h n (by simp [hn])) (fun i hi => h' i (by simp [hi])))
  | .index i :: cs =>
    exact .index ⟨(numeral_digits i).1, (numeral_digits i).2.1, (numeral_digits i).2.2, h' i (by simp)⟩
      (spellRest_parts (fun n hn => h n (by simp [hn])) (fun i hi => h' i (by simp [hi])))

/-- A text that a `&str` can hold. -/
def Text (p : Str) : Prop := ∃ s : String, str s = p

theorem text_nil : Text [] := ⟨"", rfl⟩

theorem text_append {p q : Str} : Text p → Text q → Text (p ++ q) := by
  rintro ⟨s, rfl⟩ ⟨s', rfl⟩
  exact ⟨s ++ s', by simp [str]⟩

theorem text_ascii {b : UInt8} (h : b.toNat < 128) : Text [b] :=
  ⟨String.ofList [Char.ofNat b.toNat], by simp [str, (encode_byte b).1 h]⟩

theorem text_all {p : Str} (h : ∀ b ∈ p, b.toNat < 128) : Text p := by
  induction p with
  | nil => exact text_nil
  | cons b p ih => exact text_append (text_ascii (h b (by simp))) (ih fun c hc => h c (by simp [hc]))

theorem chars_split : ∀ {l : List Char} {a b : Str} {x : UInt8}, l.flatMap String.utf8EncodeChar = a ++ x :: b → x.toNat < 128 →
    ∃ l1 l2 : List Char, l1.flatMap String.utf8EncodeChar = a ∧ l2.flatMap String.utf8EncodeChar = b
  | [], a, b, x, h, _ => by simp at h
  | c :: l, a, b, x, h, hx => by
    rw [List.flatMap_cons] at h
    rcases List.append_eq_append_iff.1 h with ⟨a', ha, hl⟩ | ⟨c', hc, hb⟩
    · obtain ⟨l1, l2, h1, h2⟩ := chars_split hl hx
      exact ⟨c :: l1, l2, by rw [List.flatMap_cons, h1, ha], h2⟩
    · rcases c' with _ | ⟨y, c'⟩
      · rw [List.append_nil] at hc
        obtain ⟨l1, l2, h1, h2⟩ := chars_split (l := l) (a := []) (b := b) (x := x) (by simpa using hb.symm) hx
        have : l1 = [] := by
          rcases l1 with _ | ⟨d, l1⟩
          · rfl
          · rw [List.flatMap_cons] at h1
            rcases utf8Encode_props d with ⟨_, e, -⟩ | ⟨_, _, e, -⟩ <;> rw [e] at h1 <;> simp at h1
        exact ⟨[c], l2, by simp [hc], h2⟩
      · rw [List.cons_append, List.cons.injEq] at hb
        obtain ⟨rfl, hb⟩ := hb
        rcases utf8Encode_props c with ⟨z, e, -⟩ | ⟨z, r, e, hz, hr⟩
        · rw [e] at hc
          rcases a with _ | ⟨_, _ | _⟩
          · simp only [List.nil_append, List.cons.injEq] at hc
            obtain ⟨-, rfl⟩ := hc
            exact ⟨[], l, rfl, by simpa using hb.symm⟩
          · simp at hc
          · simp at hc
        · exfalso
          have : x ∈ z :: r := by rw [← e, hc]; simp
          rcases List.mem_cons.1 this with rfl | h
          · rw [UInt8.le_iff_toNat_le] at hz; simp at hz; omega
          · have := hr _ h
            rw [UInt8.le_iff_toNat_le] at this; simp at this; omega

theorem text_split {a b : Str} {x : UInt8} (h : Text (a ++ x :: b)) (hx : x.toNat < 128) : Text a ∧ Text b := by
  obtain ⟨s, h⟩ := h
  obtain ⟨l1, l2, h1, h2⟩ := chars_split h hx
  exact ⟨⟨String.ofList l1, by simpa [str] using h1⟩, ⟨String.ofList l2, by simpa [str] using h2⟩⟩

/-- A name, and then more components. -/
theorem text_name {limit : Nat} {n rest : Str} {cs : List PathComponent} (h : Text (n ++ rest)) (hp : Parts limit rest cs) :
    Text n ∧ Text rest := by
  cases hp with
  | nil => exact ⟨by simpa using h, text_nil⟩
  | name _ _ =>
    rw [List.append_assoc, List.singleton_append] at h ⊢
    obtain ⟨h1, h2⟩ := text_split h (by decide)
    exact ⟨h1, text_append (p := [46]) (text_ascii (by decide)) h2⟩
  | index _ _ =>
    rw [List.append_assoc, List.append_assoc, List.singleton_append] at h ⊢
    obtain ⟨h1, h2⟩ := text_split h (by decide)
    exact ⟨h1, text_append (p := [91]) (text_ascii (by decide)) h2⟩

theorem text_index {ds rest : Str} (h : Text ([91] ++ ds ++ [93] ++ rest)) : Text rest := by
  rw [List.append_assoc, List.append_assoc, List.singleton_append] at h
  have h1 := (text_split (a := []) h (by decide)).2
  rw [List.singleton_append] at h1
  exact (text_split h1 (by decide)).2

theorem parts_texts {limit : Nat} {p : Str} {cs : List PathComponent} (h : Parts limit p cs) : Text p → Text (spellRest cs) := by
  induction h with
  | nil => exact fun h => h
  | name _ hr ih =>
    intro h
    rw [List.append_assoc, List.singleton_append] at h
    obtain ⟨h1, h2⟩ := text_name (text_split (a := []) h (by decide)).2 hr
    exact text_append (text_append (text_ascii (by decide)) h1) (ih h2)
  | index hi hr ih =>
    intro h
    refine text_append (text_append (text_append (text_ascii (by decide)) (text_all fun b hb => ?_)) (text_ascii (by decide)))
      (ih (text_index h))
    have := (numeral_digits _).2.1 b hb
    rw [Digit] at this
    omega

theorem path_texts {limit : Nat} {p : Str} {cs : List PathComponent} (h : Path limit p cs) (ht : Text p) : Text (spell cs) := by
  cases h with
  | empty => exact text_nil
  | name _ hr =>
    obtain ⟨h1, h2⟩ := text_name ht hr
    exact text_append h1 (parts_texts hr h2)
  | index hi hr => exact parts_texts (.index hi hr) ht

theorem parts_components {limit : Nat} {p : Str} {cs : List PathComponent} (h : Parts limit p cs) :
    (∀ n, .name n ∈ cs → IsName n) ∧ ∀ i, .index i ∈ cs → i < limit := by
  induction h with
  | nil => simp
  | name hn _ ih =>
    refine ⟨fun n h => ?_, fun i h => ih.2 i (by simpa using h)⟩
    rcases List.mem_cons.1 h with h | h
    · cases h; exact hn
    · exact ih.1 n h
  | index hi _ ih =>
    refine ⟨fun n h => ih.1 n (by simpa using h), fun i h => ?_⟩
    rcases List.mem_cons.1 h with h | h
    · cases h; exact hi.fits
    · exact ih.2 i h

theorem path_components {limit : Nat} {p : Str} {cs : List PathComponent} (h : Path limit p cs) :
    (∀ n, .name n ∈ cs → IsName n) ∧ ∀ i, .index i ∈ cs → i < limit := by
  cases h with
  | empty => simp
  | name hn hr => exact parts_components (.name hn hr)
  | index hi hr => exact parts_components (.index hi hr)

theorem accepted_path {limit : Nat} {p : Str} {cs : List PathComponent} (h : AcceptedPath limit p cs) (ht : Text p) :
    ∃ q, Path limit q cs ∧ Text q := by
  cases h with
  | strict h => exact ⟨_, h, ht⟩
  | danglingDot h _ => exact ⟨_, h, (text_split ht (by decide)).1⟩
  | danglingOpen h _ => exact ⟨_, h, (text_split ht (by decide)).1⟩

/-- C108: every text that is accepted can be replaced by the plain spelling of its components, which is a path of the
documented syntax: all answers are the same. -/
theorem offset_of_spell (cfg : Cfg) (s : String) (cs : List PathComponent) (h : AcceptedPath cfg.usizeMod (str s) cs) :
    ∃ s' : String, str s' = spell cs ∧ Path cfg.usizeMod (str s') cs ∧
      ∀ ti t r, OffsetOf cfg ti t (str s) r ↔ OffsetOf cfg ti t (str s') r := by
  obtain ⟨q, hq, ht⟩ := accepted_path h ⟨s, rfl⟩
  obtain ⟨s', hs'⟩ := path_texts hq ht
  have hp := path_components hq
  have hs : Path cfg.usizeMod (str s') cs := hs' ▸ spell_path hp.1 hp.2
  exact ⟨s', hs', hs, fun ti t r => offset_of_spelling cfg ti t s s' cs h (.strict hs) r⟩

/-- C108: the plain spelling determines the components. -/
theorem spell_injective (cfg : Cfg) (s s' : String) (cs ds : List PathComponent) (h : AcceptedPath cfg.usizeMod (str s) cs)
    (h' : AcceptedPath cfg.usizeMod (str s') ds) (he : spell cs = spell ds) : cs = ds := by
  obtain ⟨q, hq, hq', -⟩ := offset_of_spell cfg s cs h
  obtain ⟨u, hu, hu', -⟩ := offset_of_spell cfg s' ds h'
  rw [hu, ← he, ← hq] at hu'
  exact accepted_unique (utf8Like_str q) (.strict hq') (.strict hu')

/-! ### Different components -/

/-- A struct with the member, or an array with just enough elements. -/
def stair (enc : Str → Name) (k : Nat) : PathComponent → Decl
  | .name n => .struct [] 0 [⟨enc n, UInt32.ofNat (k + 1), 0, none⟩]
  | .index i => .array (UInt32.ofNat (k + 1)) 0 (UInt32.ofNat (i + 1))

/-- Types in which the path leads to the last one, an empty struct. The first one gets the id `k`. -/
def stairs (enc : Str → Name) : Nat → List PathComponent → List Decl
  | _, [] => [.struct [] 0 []]
  | k, c :: cs => stair enc k c :: stairs enc (k + 1) cs

/-- What the types of such a file are. -/
def IsStairs (ti : TypeInformation) : Nat → List PathComponent → Prop
  | k, [] => ∃ hd d, ti.fromId (UInt32.ofNat k) = some (.struct hd d) ∧ d.size = 0 ∧ d.memberList = []
  | k, .name n :: cs => (∃ hd d m, ti.fromId (UInt32.ofNat k) = some (.struct hd d) ∧ d.size = 0 ∧ d.memberList = [m] ∧
      m.name = some n ∧ m.tid = UInt32.ofNat (k + 1) ∧ m.offset = .byteOffset 0) ∧ IsStairs ti (k + 1) cs
  | k, .index i :: cs => (∃ hd d, ti.fromId (UInt32.ofNat k) = some (.array hd d) ∧ d.elementTid = UInt32.ofNat (k + 1) ∧
      d.elementCount.toNat = i + 1) ∧ IsStairs ti (k + 1) cs

theorem stairs_length (enc : Str → Name) : ∀ k cs, (stairs enc k cs).length = cs.length + 1
  | _, [] => rfl
  | k, c :: cs => by rw [stairs, List.length_cons, stairs_length enc (k + 1) cs, List.length_cons]

theorem isStairs_of {ti : TypeInformation} {enc : Str → Name} : ∀ {cs : List PathComponent} {k : Nat},
    (∀ n, .name n ∈ cs → enc n ≠ [] ∧ latin1 (enc n) = n) → (∀ i, .index i ∈ cs → i + 1 < 2 ^ 32) →
    (∀ j (h : j < (stairs enc k cs).length), ∃ v, ti.fromId (UInt32.ofNat (k + j)) = some v ∧ Says (stairs enc k cs)[j] v) →
    IsStairs ti k cs
  | [], k, _, _, h => by
    obtain ⟨v, hv, hsays⟩ := h 0 (by simp [stairs])
    cases v with
    | struct hd d =>
      obtain ⟨-, h1, h2⟩ := hsays
      exact ⟨hd, d, hv, h1, List.forall₂_nil_left_iff.1 h2⟩
    | _ => exact hsays.elim
  | c :: cs, k, hn, hi, h => by
    have hrest : IsStairs ti (k + 1) cs := isStairs_of (fun n hm => hn n (by simp [hm])) (fun i hm => hi i (by simp [hm]))
      fun j hj => by
        obtain ⟨v, hv, hsays⟩ := h (j + 1) (by simpa [stairs] using hj)
        exact ⟨v, by rw [Nat.add_assoc, Nat.add_comm 1 j]; exact hv, hsays⟩
    obtain ⟨v, hv, hsays⟩ := h 0 (by simp [stairs])
    change Says (stair enc k c) v at hsays
    cases c with
    | name n =>
      obtain ⟨hne, hl⟩ := hn n (by simp)
      cases v with
      | struct hd d =>
        obtain ⟨-, h1, h2⟩ := hsays
        obtain ⟨m, l, hm, hl', hd'⟩ := List.forall₂_cons_left_iff.1 h2
        rw [List.forall₂_nil_left_iff.1 hl'] at hd'
        obtain ⟨a, b, c⟩ := member_zero hm
        refine ⟨⟨hd, d, m, hv, h1, hd', ?_, b, c⟩, hrest⟩
        rw [a, nameStr, if_neg hne, hl]
      | _ => exact hsays.elim
    | index i =>
      cases v with
      | array hd d =>
        simp only [stair, Says] at hsays
        refine ⟨⟨hd, d, hv, by rw [hsays], ?_⟩, hrest⟩
        rw [hsays]
        exact UInt32.toNat_ofNat_of_lt' (hi i (by simp))
      | _ => exact hsays.elim

theorem stairs_size {ti : TypeInformation} {limit : Option Nat} (hl : ∀ l, limit = some l → 0 < l) :
    ∀ {cs : List PathComponent} {k : Nat}, IsStairs ti k cs → HasSize limit ti (UInt32.ofNat k) 0
  | [], _, ⟨_, d, h1, h2, _⟩ => .own h1 (by simp [ownSize, h2])
  | .name _ :: _, _, ⟨⟨_, d, _, h1, h2, _⟩, _⟩ => .own h1 (by simp [ownSize, h2])
  | .index _ :: _, _, ⟨⟨hd, d, h1, h2, _⟩, h⟩ => by
    have := HasSize.array h1 (h2 ▸ stairs_size hl h) (fun l hl' => by rw [Nat.zero_mul]; exact hl l hl')
    rwa [Nat.zero_mul] at this

theorem after_zero_zero : After (.byteOffset 0) (.byteOffset 0) (.byteOffset 0) := ⟨by simp [IsBitfield, bitWidth], rfl, rfl⟩

theorem limit_pos_of (cfg : Cfg) : ∀ l, some cfg.usizeMod = some l → 0 < l := by
  rintro l ⟨⟩
  rcases cfg with ⟨w, o⟩
  cases w <;> simp [Cfg.usizeMod]

theorem resolves_self {ti : TypeInformation} {t : UInt32} {v : TypeVariant} (h : ti.fromId t = some v) (ha : accessAlias v = none) :
    Resolves ti t v := ⟨t, .refl, h, ha⟩

/-- The path leads to the last type. -/
theorem stairs_lead {cfg : Cfg} {ti : TypeInformation} : ∀ {cs : List PathComponent} {k : Nat}, IsStairs ti k cs →
    Search cfg ti true (UInt32.ofNat k) (.byteOffset 0) cs (.ok (UInt32.ofNat (k + cs.length), .byteOffset 0))
  | [], _, _ => .done rfl
  | .name n :: cs, k, ⟨⟨hd, d, m, h1, _, h3, h4, h5, h6⟩, h⟩ => by
    have := stairs_lead (cfg := cfg) h
    rw [Nat.add_assoc, Nat.add_comm 1] at this
    refine .named (pre := []) (post := []) (m := m) (o' := .byteOffset 0) (fun _ => .byteOffset 0) (fun _ => .InvalidTypePath)
      (resolves_self h1 rfl) (by simp [membersOf, h3]) ?_ ?_ h4 (by simp) (h6 ▸ after_zero_zero) (h5 ▸ this)
    all_goals
      intro a ha hn
      simp only [List.nil_append, List.mem_singleton] at ha
      subst ha
      rw [h4] at hn; cases hn
  | .index i :: cs, k, ⟨⟨hd, d, h1, h2, h3⟩, h⟩ => by
    have := stairs_lead (cfg := cfg) h
    rw [Nat.add_assoc, Nat.add_comm 1] at this
    refine .element (n := 0) (o' := .byteOffset 0) (resolves_self h1 rfl) (by omega)
      ((size_of_exact cfg ti _ 0 (h2 ▸ stairs_size (limit_pos_of cfg) h) _).2 rfl) (by omega) after_zero_zero (h2 ▸ this)

/-- The components `ds` lead nowhere in the types for `cs`: they go on after the end, or differ, and not in a smaller
number. -/
inductive Misses : List PathComponent → List PathComponent → Prop where
  | pastEnd {d ds} : Misses [] (d :: ds)
  | same {c cs ds} : Misses cs ds → Misses (c :: cs) (c :: ds)
  | names {n n' cs ds} : n' ≠ n → Misses (.name n :: cs) (.name n' :: ds)
  | notName {n i cs ds} : Misses (.name n :: cs) (.index i :: ds)
  | notIndex {n i cs ds} : Misses (.index i :: cs) (.name n :: ds)
  | indices {i i' cs ds} : i < i' → Misses (.index i :: cs) (.index i' :: ds)

theorem misses_of_ne : ∀ {cs ds : List PathComponent}, cs ≠ ds → Misses cs ds ∨ Misses ds cs
  | [], [], h => absurd rfl h
  | [], _ :: _, _ => .inl .pastEnd
  | _ :: _, [], _ => .inr .pastEnd
  | c :: cs, d :: ds, h => by
    by_cases hcd : c = d
    · subst hcd
      rcases misses_of_ne (cs := cs) (ds := ds) (fun h' => h (by rw [h'])) with h' | h'
      · exact .inl (.same h')
      · exact .inr (.same h')
    · cases c with
      | name n =>
        cases d with
        | name n' => exact .inl (.names fun h' => hcd (by rw [h']))
        | index i => exact .inl .notName
      | index i =>
        cases d with
        | name n' => exact .inl .notIndex
        | index i' =>
          rcases Nat.lt_trichotomy i i' with h' | h' | h'
          · exact .inl (.indices h')
          · exact absurd (by rw [h']) hcd
          · exact .inr (.indices h')

theorem stairs_miss {cfg : Cfg} {ti : TypeInformation} {cs ds : List PathComponent} (h : Misses cs ds) : ∀ {k : Nat},
    IsStairs ti k cs → Search cfg ti true (UInt32.ofNat k) (.byteOffset 0) ds (.err .InvalidTypePath) := by
  induction h with
  | @pastEnd d ds =>
    rintro k ⟨hd, v, h1, -, h2⟩
    cases d with
    | index i => exact .closed (resolves_self h1 rfl) (fun _ _ => by simp)
    | name n =>
      exact .notFound (ms := []) (fun _ => .byteOffset 0) (fun _ => .InvalidTypePath) (resolves_self h1 rfl)
        (by simp [membersOf, h2]) (by simp) (by simp) (by simp)
  | @same c cs ds _ ih =>
    intro k h
    cases c with
    | name n =>
      obtain ⟨⟨hd, d, m, h1, -, h3, h4, h5, h6⟩, h⟩ := h
      refine .named (pre := []) (post := []) (m := m) (o' := .byteOffset 0) (fun _ => .byteOffset 0) (fun _ => .InvalidTypePath)
        (resolves_self h1 rfl) (by simp [membersOf, h3]) ?_ ?_ h4 (by simp) (h6 ▸ after_zero_zero) (h5 ▸ ih h)
      all_goals
        intro a ha hn
        simp only [List.nil_append, List.mem_singleton] at ha
        subst ha
        rw [h4] at hn; cases hn
    | index i =>
      obtain ⟨⟨hd, d, h1, h2, h3⟩, h⟩ := h
      exact .element (n := 0) (o' := .byteOffset 0) (resolves_self h1 rfl) (by omega)
        ((size_of_exact cfg ti _ 0 (h2 ▸ stairs_size (limit_pos_of cfg) h) _).2 rfl) (by omega) after_zero_zero (h2 ▸ ih h)
  | names hne =>
    rintro k ⟨⟨hd, d, m, h1, -, h3, h4, -⟩, -⟩
    refine .notFound (ms := [m]) (fun _ => .byteOffset 0) (fun _ => .InvalidTypePath) (resolves_self h1 rfl)
      (by simp [membersOf, h3]) ?_ ?_ ?_
    all_goals
      intro a ha
      rw [List.mem_singleton] at ha
      subst ha
      rw [h4]
      first | (intro hn; cases hn; done) | skip
    intro h
    cases h
    exact hne rfl
  | notName =>
    rintro k ⟨⟨hd, d, m, h1, -⟩, -⟩
    exact .closed (resolves_self h1 rfl) (fun _ _ => by simp)
  | notIndex =>
    rintro k ⟨⟨hd, d, h1, -⟩, -⟩
    exact .closed (resolves_self h1 rfl) rfl
  | indices hlt =>
    rintro k ⟨⟨hd, d, h1, -, h3⟩, -⟩
    exact .outOfBounds (resolves_self h1 rfl) (by omega)

/-! ### The size of such a file -/

theorem stair_words (off : Name → UInt32) (enc : Str → Name) (k : Nat) (c : PathComponent) :
    (words off (stair enc k c)).length = 6 := by
  cases c <;> rfl

theorem stairs_words (off : Name → UInt32) (enc : Str → Name) : ∀ k cs,
    ((stairs enc k cs).flatMap (words off)).length = 6 * cs.length + 3
  | _, [] => rfl
  | k, c :: cs => by
    rw [stairs, List.flatMap_cons, List.length_append, stair_words, stairs_words off enc (k + 1) cs, List.length_cons]
    omega

/-- The least number of bytes for the components. -/
def leastLength : List PathComponent → Nat
  | [] => 0
  | .name n :: cs => n.length + leastLength cs
  | .index _ :: cs => 1 + leastLength cs

theorem stairs_strings {enc : Str → Name} : ∀ {k : Nat} {cs : List PathComponent},
    (∀ n, .name n ∈ cs → (enc n).length ≤ n.length ∧ n ≠ []) →
    (((stairs enc k cs).flatMap namesOf).flatMap (· ++ [(0 : UInt8)])).length ≤ 3 * leastLength cs + 1 ∧
      cs.length ≤ leastLength cs
  | _, [], _ => ⟨by simp [stairs, namesOf, leastLength], by simp⟩
  | k, c :: cs, h => by
    have ih := stairs_strings (k := k + 1) (fun n hn => h n (by simp [hn]) : ∀ n, .name n ∈ cs → _)
    rw [stairs, List.flatMap_cons, List.flatMap_append, List.length_append, List.length_cons]
    cases c with
    | name n =>
      obtain ⟨h1, h2⟩ := h n (by simp)
      have h3 := List.length_pos_iff.2 h2
      have : ((namesOf (stair enc k (.name n))).flatMap (· ++ [(0 : UInt8)])).length = (enc n).length + 2 := by
        simp [namesOf, stair]
      rw [this, leastLength]
      omega
    | index i =>
      have : ((namesOf (stair enc k (.index i))).flatMap (· ++ [(0 : UInt8)])).length = 0 := rfl
      rw [this, leastLength]
      omega

theorem parts_length {limit : Nat} {p : Str} {cs : List PathComponent} (h : Parts limit p cs) : leastLength cs ≤ p.length := by
  induction h with
  | nil => exact Nat.le_refl _
  | name _ _ ih => simp only [leastLength, List.length_append, List.length_singleton]; omega
  | index _ _ ih => simp only [leastLength, List.length_append, List.length_singleton]; omega

theorem accepted_length {limit : Nat} {p : Str} {cs : List PathComponent} (h : AcceptedPath limit p cs) :
    leastLength cs ≤ p.length := by
  have hp : ∀ {p : Str}, Path limit p cs → leastLength cs ≤ p.length := by
    intro p hq
    cases hq with
    | empty => exact Nat.le_refl _
    | name _ hr => have := parts_length hr; simp only [leastLength, List.length_append]; omega
    | index hi hr => exact parts_length (.index hi hr)
  cases h with
  | strict h => exact hp h
  | danglingDot h _ => have := hp h; rw [List.length_append]; omega
  | danglingOpen h _ => have := hp h; rw [List.length_append]; omega

theorem accepted_components {limit : Nat} {p : Str} {cs : List PathComponent} (h : AcceptedPath limit p cs) :
    (∀ n, .name n ∈ cs → IsName n) ∧ ∀ i, .index i ∈ cs → i < limit := by
  cases h with
  | strict h => exact path_components h
  | danglingDot h _ => exact path_components h
  | danglingOpen h _ => exact path_components h

theorem latin1_longer : ∀ bs : List UInt8, bs.length ≤ (latin1 bs).length
  | [] => Nat.zero_le _
  | b :: bs => by
    rw [latin1_cons, List.length_append, List.length_cons]
    have := latin1_longer bs
    rcases utf8Encode_props (Char.ofNat b.toNat) with ⟨_, e, -⟩ | ⟨_, _, e, -⟩ <;> rw [e, List.length_cons] <;> omega

/-- A file for a path, in which all that `Misses` the path fails. -/
theorem stairs_file (cfg : Cfg) (s : String) (cs : List PathComponent) (h : AcceptedPath cfg.usizeMod (str s) cs)
    (hp : ∀ c ∈ cs, Possible c) (hl : (str s).length ≤ 2 ^ 27) : ∃ f : List UInt8, f.length < 2 ^ 32 - 2 ^ 20 ∧
    ∀ R, Serves cfg R f → ∃ ti, TypeInformation.new cfg R = .ok ti ∧ IsStairs ti 1 cs := by
  have hlen := accepted_length h
  have hn : ∀ n, ∃ bs, .name n ∈ cs → bs ≠ [] ∧ latin1 bs = n ∧ (0 : UInt8) ∉ bs ∧ bs.length ≤ n.length ∧ n ≠ [] := by
    intro n
    by_cases hm : .name n ∈ cs
    · obtain ⟨bs, rfl⟩ := hp _ hm
      have hN := (accepted_components h).1 _ hm
      obtain ⟨⟨b, rest, rfl, -⟩, hw⟩ := (writable_iff bs).1 hN
      refine ⟨_, fun _ => ⟨by simp, rfl, fun h0 => absurd (hw 0 h0) (by decide), latin1_longer _, fun h0 => ?_⟩⟩
      rw [h0] at hN; cases hN
    · exact ⟨[], fun h => absurd h hm⟩
  choose enc henc using hn
  obtain ⟨hs, hc⟩ := stairs_strings (enc := enc) (k := 1) (cs := cs) fun n hn => ⟨(henc n hn).2.2.2.1, (henc n hn).2.2.2.2⟩
  have hwords : (typeWords (stairs enc 1 cs)).length = 6 * cs.length + 3 := stairs_words _ enc 1 cs
  have hstr : (stringTable (stairs enc 1 cs)).length ≤ 3 * leastLength cs + 2 := by
    rw [stringTable, List.length_cons]; omega
  have hgood : ∀ k ds, (∀ c ∈ ds, c ∈ cs) → ∀ d ∈ stairs enc k ds, Good d := by
    intro k ds
    induction ds generalizing k with
    | nil =>
      intro _ d hd
      simp only [stairs, List.mem_singleton] at hd
      subst hd
      exact ⟨by simp, by decide, by simp⟩
    | cons c ds ih =>
      intro hsub d hd
      rcases List.mem_cons.1 hd with rfl | hd
      · cases c with
        | name n =>
          refine ⟨by simp, by simp, fun m hm => ?_⟩
          rw [List.mem_singleton] at hm
          subst hm
          exact ⟨(henc n (hsub _ (by simp))).2.2.1, by simp, by split <;> simp⟩
        | index i => trivial
      · exact ih (k + 1) (fun c hc => hsub c (by simp [hc])) d hd
  refine ⟨encode .little (stairs enc 1 cs), ?_, fun R hS => ?_⟩
  · unfold encode
    rw [fileOf_length, hwords]
    omega
  obtain ⟨ti, h1, -, h2⟩ := round_trip_lookup (e := .little) (hgood 1 cs fun _ h => h) (by omega) (.inl rfl) hS
    (encode_fits (by omega))
  refine ⟨ti, h1, isStairs_of (fun n hn => ⟨(henc n hn).1, (henc n hn).2.1⟩) (fun i hi => hp _ hi) fun j hj => ?_⟩
  obtain ⟨v, hv, hs, -⟩ := h2 j hj
  exact ⟨v, by rw [Nat.add_comm]; exact hv, hs⟩

/-- C108: every path (of up to 128 MiB) whose components are `Possible` leads somewhere in some file. -/
theorem possible_leads (cfg : Cfg) (s : String) (cs : List PathComponent) (h : AcceptedPath cfg.usizeMod (str s) cs)
    (hp : ∀ c ∈ cs, Possible c) (hl : (str s).length ≤ 2 ^ 27) : ∃ f : List UInt8, f.length < 2 ^ 32 ∧
    ∀ R, Serves cfg R f → ∃ ti r, TypeInformation.new cfg R = .ok ti ∧ OffsetOf cfg ti 1 (str s) (.ok r) := by
  obtain ⟨f, hf, h1⟩ := stairs_file cfg s cs h hp hl
  refine ⟨f, by omega, fun R hS => ?_⟩
  obtain ⟨ti, hti, hst⟩ := h1 R hS
  exact ⟨ti, _, hti, (offset_of_search cfg ti 1 s cs h _).2 (stairs_lead hst)⟩

/-- C108: paths with different components are different: there is a file in which one of them leads somewhere, and the
other one does not. -/
theorem different_components (cfg : Cfg) (s s' : String) (cs ds : List PathComponent)
    (h : AcceptedPath cfg.usizeMod (str s) cs) (h' : AcceptedPath cfg.usizeMod (str s') ds)
    (hp : ∀ c ∈ cs, Possible c) (hp' : ∀ c ∈ ds, Possible c) (hl : (str s).length ≤ 2 ^ 27) (hl' : (str s').length ≤ 2 ^ 27)
    (hne : cs ≠ ds) : ∃ f : List UInt8, f.length < 2 ^ 32 ∧
    ∀ R, Serves cfg R f → ∃ ti r, TypeInformation.new cfg R = .ok ti ∧
      (OffsetOf cfg ti 1 (str s) (.ok r) ∧ OffsetOf cfg ti 1 (str s') (.err .InvalidTypePath) ∨
       OffsetOf cfg ti 1 (str s') (.ok r) ∧ OffsetOf cfg ti 1 (str s) (.err .InvalidTypePath)) := by
  rcases misses_of_ne hne with hm | hm
  · obtain ⟨f, hf, h1⟩ := stairs_file cfg s cs h hp hl
    refine ⟨f, by omega, fun R hS => ?_⟩
    obtain ⟨ti, hti, hst⟩ := h1 R hS
    exact ⟨ti, _, hti, .inl ⟨(offset_of_search cfg ti 1 s cs h _).2 (stairs_lead hst),
      (offset_of_search cfg ti 1 s' ds h' _).2 (stairs_miss hm hst)⟩⟩
  · obtain ⟨f, hf, h1⟩ := stairs_file cfg s' ds h' hp' hl'
    refine ⟨f, by omega, fun R hS => ?_⟩
    obtain ⟨ti, hti, hst⟩ := h1 R hS
    exact ⟨ti, _, hti, .inr ⟨(offset_of_search cfg ti 1 s' ds h' _).2 (stairs_lead hst),
      (offset_of_search cfg ti 1 s cs h _).2 (stairs_miss hm hst)⟩⟩

/-- C108: so two paths with `Possible` components have the same answers in all files exactly if they have the same
components. -/
theorem same_answers_iff (cfg : Cfg) (s s' : String) (cs ds : List PathComponent)
    (h : AcceptedPath cfg.usizeMod (str s) cs) (h' : AcceptedPath cfg.usizeMod (str s') ds)
    (hp : ∀ c ∈ cs, Possible c) (hp' : ∀ c ∈ ds, Possible c) (hl : (str s).length ≤ 2 ^ 27) (hl' : (str s').length ≤ 2 ^ 27) :
    cs = ds ↔ ∀ f R ti, Serves cfg R f → TypeInformation.new cfg R = .ok ti →
      ∀ t r, OffsetOf cfg ti t (str s) r ↔ OffsetOf cfg ti t (str s') r := by
  constructor
  · rintro rfl f R ti - - t r
    exact offset_of_spelling cfg ti t s s' cs h h' r
  · intro hall
    by_contra hne
    obtain ⟨f, hf, h1⟩ := different_components cfg s s' cs ds h h' hp hp' hl hl' hne
    have hS : Serves cfg (readableBuffer cfg f) f := serves_buffer cfg f (by
      rcases cfg with ⟨w, o⟩
      cases w <;> simp only [Cfg.usizeMod] <;> omega)
    obtain ⟨ti, r, hti, ⟨a, b⟩ | ⟨a, b⟩⟩ := h1 _ hS
    · exact absurd (offset_of_deterministic cfg ti 1 s _ _ a ((hall f _ ti hS hti 1 _).2 b)) (by simp)
    · exact absurd (offset_of_deterministic cfg ti 1 s _ _ b ((hall f _ ti hS hti 1 _).2 a)) (by simp)

/-! ### The other components -/

theorem search_index_bound {cfg : Cfg} {ti : TypeInformation} {c : Bool} {t : UInt32} {o : Offset} {cs : List PathComponent}
    {r : Outcome (UInt32 × Offset)} (h : Search cfg ti c t o cs r) : ∀ x, r = .ok x →
    (∀ i, .index i ∈ cs → i + 1 < 2 ^ 32) ∧
    ∀ n, .name n ∈ cs → ∃ t v ms m, ti.fromId t = some v ∧ membersOf v = some ms ∧ m ∈ ms ∧ m.name = some n := by
  induction h with
  | done _ => intro x _; simp
  | @element t hd d i n o o' cs r _ hi _ _ _ _ ih =>
    intro x hx
    obtain ⟨h1, h2⟩ := ih x hx
    refine ⟨fun j hj => ?_, fun n hn => h2 n (by simpa using hn)⟩
    rcases List.mem_cons.1 hj with h | h
    · cases h
      have := d.elementCount.toNat_lt
      omega
    · exact h1 j h
  | unnamed q e _ _ _ _ _ _ _ _ ih2 ih => exact fun x hx => ih x hx
  | @named t v pre m post name o o' cs r q e hr hm _ _ hn _ _ _ _ ih =>
    intro x hx
    obtain ⟨h1, h2⟩ := ih x hx
    refine ⟨fun j hj => h1 j (by simpa using hj), fun n hn' => ?_⟩
    rcases List.mem_cons.1 hn' with h | h
    · cases h
      obtain ⟨a, -, ha, -⟩ := hr
      exact ⟨a, v, _, m, ha, hm, by simp, hn⟩
    · exact h2 n h
  | _ => intro x hx; cases hx

/-- C108: a path with a component that is not `Possible` leads nowhere in any file. -/
theorem possible_of_ok {cfg cfg' : Cfg} {R : Readable} {f : List UInt8} (hS : Serves cfg R f) (ha : FitsTarget cfg f)
    {ti : TypeInformation} (hti : TypeInformation.new cfg R = .ok ti) (t : UInt32) (s : String) (cs : List PathComponent)
    (h : AcceptedPath cfg'.usizeMod (str s) cs) (r : UInt32 × Offset) (hr : OffsetOf cfg' ti t (str s) (.ok r)) :
    ∀ c ∈ cs, Possible c := by
  obtain ⟨h1, h2⟩ := search_index_bound ((offset_of_search cfg' ti t s cs h _).1 hr) _ rfl
  intro c hc
  cases c with
  | index i => exact h1 i hc
  | name n =>
    obtain ⟨u, v, ms, m, hv, hms, hm, hn⟩ := h2 n hc
    have key : ∀ th d, (ti.fromId u = some (.struct th d) ∨ ti.fromId u = some (.union th d)) → d.memberList = ms →
        Possible (.name n) := by
      intro th d hd he
      obtain ⟨e, fh, pos, -, -, hmem⟩ := new_members hS ha hti hd
      obtain ⟨i, hi⟩ := List.mem_iff_getElem?.1 hm
      obtain ⟨raw, -, hname, -⟩ := hmem i m (by rw [he]; exact hi)
      rw [hn] at hname
      obtain ⟨-, -, bs, -, -, -, rfl⟩ := hname
      exact ⟨bs, rfl⟩
    cases v with
    | struct th d => exact key th d (.inl hv) (by simpa [membersOf] using hms)
    | union th d => exact key th d (.inr hv) (by simpa [membersOf] using hms)
    | _ => cases hms

/-! ### Examples -/

theorem spelled_path (limit : Nat) (hl : 8 < limit) : AcceptedPath limit (str "[07].b.") [.index 7, .name (str "b")] ∧
    AcceptedPath limit (str "[7].b") [.index 7, .name (str "b")] ∧
    AcceptedPath limit (str "[8].b") [.index 8, .name (str "b")] := by
  have hb : IsName (str "b") := .mk 98 [] (by simp [NameStart, Letter]) (by simp)
  refine ⟨.danglingDot (p := str "[07].b") (.index (ds := str "07") ⟨by decide, by simp [str, Digit, String.utf8EncodeChar],
      by decide, by omega⟩ (.name (n := str "b") hb .nil)) (by simp),
    .strict (.index (ds := str "7") ⟨by decide, by simp [str, Digit, String.utf8EncodeChar], by decide, by omega⟩
      (.name (n := str "b") hb .nil)),
    .strict (.index (ds := str "8") ⟨by decide, by simp [str, Digit, String.utf8EncodeChar], by decide, by omega⟩
      (.name (n := str "b") hb .nil))⟩

/-- `offset_of_spelling`: `[07].b.` and `[7].b` have the same answers. -/
example (cfg : Cfg) (hc : 8 < cfg.usizeMod) (ti : TypeInformation) (t : UInt32) (r : Outcome (UInt32 × Offset)) :
    OffsetOf cfg ti t (str "[07].b.") r ↔ OffsetOf cfg ti t (str "[7].b") r :=
  offset_of_spelling cfg ti t _ _ _ (spelled_path _ hc).1 (spelled_path _ hc).2.1 r

/-- `spell_path`, `offset_of_spell`, `spell_injective`: `[7].b` is the plain spelling. -/
example : spell [.index 7, .name (str "b")] = str "[7].b" ∧ spell [.name (str "a"), .index 120, .name (str "b")] = str "a[120].b" := by
  decide +kernel

/-- `possible_leads`, `different_components`, `same_answers_iff`: `[7].b` and `[8].b` have `Possible` components, and there is
a file in which they differ. -/
example (cfg : Cfg) (hc : 8 < cfg.usizeMod) : ∃ f R ti r, Serves cfg R f ∧ TypeInformation.new cfg R = .ok ti ∧
    (OffsetOf cfg ti 1 (str "[7].b") (.ok r) ∧ OffsetOf cfg ti 1 (str "[8].b") (.err .InvalidTypePath) ∨
     OffsetOf cfg ti 1 (str "[8].b") (.ok r) ∧ OffsetOf cfg ti 1 (str "[7].b") (.err .InvalidTypePath)) := by
  have hb : Possible (.name (str "b")) := ⟨[98], by decide +kernel⟩
  obtain ⟨f, hf, h⟩ := different_components cfg "[7].b" "[8].b" _ _ (spelled_path _ hc).2.1 (spelled_path _ hc).2.2
    (by simp only [List.mem_cons, List.not_mem_nil, or_false, forall_eq_or_imp, forall_eq]; exact ⟨by simp [Possible], hb⟩)
    (by simp only [List.mem_cons, List.not_mem_nil, or_false, forall_eq_or_imp, forall_eq]; exact ⟨by simp [Possible], hb⟩)
    (by decide +kernel) (by decide +kernel) (by simp)
  have hS : Serves cfg (readableBuffer cfg f) f := serves_buffer cfg f (by
    rcases cfg with ⟨w, o⟩
    cases w <;> simp only [Cfg.usizeMod] <;> omega)
  obtain ⟨ti, r, h1, h2⟩ := h _ hS
  exact ⟨f, _, ti, r, hS, h1, h2⟩

/-- `possible_of_ok`: no array has an element 4294967295, and no name of a file is read as `ꪪ`, although that is a name of the
path syntax. -/
example : ¬ Possible (.index 4294967295) ∧ IsName (str "ꪪ") ∧ ¬ Possible (.name (str "ꪪ")) := by
  refine ⟨by simp [Possible], ?_, ?_⟩
  · rw [show str "ꪪ" = [234, 170, 170] by decide +kernel]
    exact .mk _ _ (by simp [NameStart, Letter]) (by simp [NameChar, Letter])
  · rintro ⟨bs, h⟩
    rw [show str "ꪪ" = [234, 170, 170] by decide +kernel] at h
    rcases bs with _ | ⟨b, bs⟩
    · cases h
    · rw [latin1_cons] at h
      have key : ∀ n : Fin 256, (String.utf8EncodeChar (Char.ofNat n.1)).head? ≠ some 234 := by decide +kernel
      apply key ⟨b.toNat, b.toNat_lt⟩
      rcases utf8Encode_props (Char.ofNat b.toNat) with ⟨_, e, -⟩ | ⟨_, _, e, -⟩ <;> rw [e] at h ⊢ <;>
        simp only [List.cons_append, List.cons.injEq] at h <;> rw [← h.1] <;> rfl

/-- `offset_of_spelling_breaks`: `b.!` and `b[?` break off after `b`. -/
example : Breaks Samples.dbg.usizeMod (str "b.!") [.name (str "b")] ∧ Breaks Samples.dbg.usizeMod (str "b[?") [.name (str "b")] :=
  ⟨(breaks_iff Samples.dbg (utf8Like_str _) _).1 (.tok rfl (.fail (e := .InvalidTypePath) rfl)),
    (breaks_iff Samples.dbg (utf8Like_str _) _).1 (.tok rfl (.fail (e := .InvalidTypePath) rfl))⟩

end Btf.Props
