import Verif.Proofs.Obstacle
import Verif.Proofs.MessageRun
import Verif.Proofs.SearchPath

/-!
# What is wrong with a text that is not a path
-/

namespace Btf

open Spec PathIter

variable {cfg : Cfg}

theorem not_start {c : UInt8} (h : ¬ startByte c = true) : ¬ NameStart c := fun h' => h ((startByte_iff c).2 h')
theorem not_name {c : UInt8} (h : nameByte c = false) : ¬ NameChar c := fun h' => by
  rw [(nameByte_iff c).2 h'] at h; cases h

theorem expect_flaw {it : PathIter} {r : Reason} {c : UInt8} {x : Str} (hd : it.path.drop it.position = c :: x)
    (h : it.nextExpectingNameT.1 = .err r) :
    (¬ NameStart c ∧ r = .invalidCharacter it.position) ∨
    ∃ w d y, c :: x = w ++ d :: y ∧ IsName w ∧ ¬ NameChar d ∧ d ≠ 46 ∧ d ≠ 91 ∧ r = .invalidCharacter (it.position + w.length) := by
  rw [nextExpectingNameT, getElem?_of_drop hd] at h
  simp only [] at h
  by_cases hs : startByte c = true
  · rw [if_pos (show (isAlphabetic c || c == chUnderscore) = true from hs)] at h
    obtain ⟨w, d, y, h1, h2, h3, h4, h5, h6⟩ := parseNameT_err h
    rw [show ({ it with state := .insideName } : PathIter).path.drop ({ it with state := .insideName } : PathIter).position
      = c :: x from hd] at h1
    obtain ⟨w', rfl⟩ := name_head h1 hs h4
    exact .inr ⟨_, d, y, h1, isName_of hs h3, not_name h4, h6, h5, h2⟩
  · rw [if_neg (show ¬ (isAlphabetic c || c == chUnderscore) = true from hs)] at h
    injection h with h
    exact .inl ⟨not_start hs, h.symm⟩

theorem numeric_of_digit {c : UInt8} (h : Digit c) : isNumeric c = true := by
  obtain ⟨h1, h2⟩ := h
  have h1' : (0x30 : UInt8) ≤ c := UInt8.le_iff_toNat_le.2 h1
  have h2' : c ≤ (0x39 : UInt8) := UInt8.le_iff_toNat_le.2 h2
  simp [isNumeric, h1', h2']

/-- An index that fails. -/
theorem index_flaw {s p y : Str} {it : PathIter} {r : Reason} {last : Option PathComponent} (hu : Utf8Like s)
    (hs : s = p ++ 91 :: y) (hp : it.position = p.length + 1) (hd : it.path.drop it.position = y)
    (hl : y = [] → ∀ x, last ≠ some (.name x)) (h : (it.parseIndexT cfg).1 = .err r) :
    Piece cfg.usizeMod last p.length (91 :: y) r := by
  rcases parseIndexT_err h with ⟨w, c, x, ha, rfl, hb, hc, hd'⟩ | ⟨rfl, ha⟩ | ⟨rfl, x, ha⟩ | ⟨ds, x, ha, hb, hc, hd', rfl⟩
  · rw [hd] at ha
    subst ha
    have := Piece.digit (limit := cfg.usizeMod) (last := last) (n := p.length) (ds := w) (b := c) (rest := x)
      (digits_of_numeric hu w p (c :: x) 91 (by decide) hs hb) (fun h' => by rw [numeric_of_digit h'] at hc; cases hc) hd'
    rw [hp]
    simpa using this
  · rw [hd] at ha
    exact .unclosed (digits_of_numeric hu y p [] 91 (by decide) (by rw [hs]; simp) ha) hl
  · rw [hd] at ha
    subst ha
    exact .empty
  · rw [hd] at ha
    subst ha
    have hdig := digits_of_numeric hu ds p (chClose :: x) 91 (by decide) hs hc
    obtain ⟨h1, h2⟩ := parseUsize_digits hb hdig hd'
    rw [h2]
    have := Piece.tooLarge (limit := cfg.usizeMod) (last := last) (n := p.length) (rest := x) hb hdig h1
    simpa [chClose] using this

theorem last_index {cs : List PathComponent} (h0 : cs ≠ []) (h : ∀ n, cs.getLast? ≠ some (.name n)) :
    ∃ i, cs.getLast? = some (.index i) := by
  cases hl : cs.getLast? with
  | none => exact absurd (List.getLast?_eq_none_iff.1 hl) h0
  | some c =>
    cases c with
    | index i => exact ⟨i, rfl⟩
    | name n => exact absurd hl (h n)

/-- The reason of the iterator. -/
theorem piece_of_err {s p : Str} {cs : List PathComponent} {it : PathIter} {r : Reason} (h : Read cfg s cs it p)
    (he : (it.nextT cfg).1 = .err r) : Flaw cfg.usizeMod s cs r := by
  have hu : Utf8Like s := h.path ▸ h.inv.utf8
  refine ⟨p, _, h.split, h.isPath, ?_⟩
  have hsplit := h.split
  have htaken := h.taken
  have hstart : it.state = .start → cs.getLast? = none := fun e => by rw [h.start.1 e]; rfl
  have hne : it.state ≠ .start → cs.getLast? ≠ none := fun e e' => e (h.start.2 (List.getLast?_eq_none_iff.1 e'))
  have hafter : it.state = .afterIndex → ∃ i, cs.getLast? = some (.index i) := fun e =>
    last_index (fun e' => by rw [h.start.2 e'] at e; cases e) fun n hn => h.name n hn e
  rw [nextT] at he
  split at he
  · cases he
  · cases hc : it.path[it.position]? with
    | none => rw [hc] at he; cases he
    | some c =>
      rw [hc] at he
      have hd : ∃ x, it.path.drop it.position = c :: x := by
        obtain ⟨hlt, rfl⟩ := List.getElem?_eq_some_iff.1 hc
        exact ⟨_, List.drop_eq_getElem_cons hlt⟩
      obtain ⟨x, hd⟩ := hd
      have hd' := drop_succ_of_drop hd
      simp only [] at he
      cases hs : it.state with
      | insideName => exact absurd hs h.notInside
      | done => rw [hs] at he; cases he
      | error => rw [hs] at he; cases he
      | start =>
        rw [hs] at he hsplit htaken
        rw [hd] at hsplit ⊢
        have hlast := hstart hs
        rw [hlast]
        simp only [consumed, List.nil_append, List.append_nil] at *
        split at he
        · rename_i hco
          replace hco : c = 91 := by simpa [chOpen] using hco
          subst hco
          exact index_flaw hu hsplit (by simp [htaken]) hd' (by simp) he
        · rename_i hco
          replace hco : c ≠ 91 := by simpa [chOpen] using hco
          have he' : it.nextExpectingNameT.1 = .err r := by
            rw [nextExpectingNameT, hc]
            simp only []
            exact he
          rcases expect_flaw hd he' with ⟨h1, rfl⟩ | ⟨w, d, y, h1, h2, h3, h4, h5, rfl⟩
          · rw [htaken]
            exact .nameStart (sep := []) (.inl ⟨rfl, rfl⟩) h1 fun _ => hco
          · rw [htaken, h1]
            have := Piece.nameChar (limit := cfg.usizeMod) (last := none) (n := p.length) (rest := y) (.inl ⟨rfl, rfl⟩) h2 h3 h4 h5
            simpa using this
      | insideIndex =>
        rw [hs] at he hsplit htaken
        exact index_flaw hu hsplit (by simp [htaken, consumed]) rfl (by simp [hd]) he
      | afterIndex =>
        obtain ⟨i, hi⟩ := hafter hs
        rw [hs] at he hsplit htaken
        rw [hd] at hsplit ⊢
        rw [hi]
        simp only [consumed, List.nil_append, List.append_nil] at *
        split at he
        · rename_i hco
          replace hco : c = 91 := by simpa [chOpen] using hco
          subst hco
          exact index_flaw hu hsplit (by simp [htaken]) hd' (by simp) he
        · rename_i hco
          replace hco : c ≠ 91 := by simpa [chOpen] using hco
          split at he
          · rename_i hcd
            replace hcd : c = 46 := by simpa [chDot] using hcd
            subst hcd
            split at he
            · rename_i hlt
              have hd2 : ∃ c' y, x = c' :: y := by
                cases x with
                | nil =>
                  have := List.drop_eq_nil_iff.1 hd'
                  omega
                | cons c' y => exact ⟨c', y, rfl⟩
              obtain ⟨c', y, rfl⟩ := hd2
              rcases expect_flaw (it := { it with position := it.position + 1, state := .expectingName }) hd' he with
                ⟨h1, rfl⟩ | ⟨w, d, z, h1, h2, h3, h4, h5, rfl⟩
              · rw [htaken]
                exact .nameStart (sep := [46]) (.inr ⟨by simp, rfl⟩) h1 (by simp)
              · simp only [htaken]
                rw [h1]
                exact .nameChar (sep := [46]) (.inr ⟨by simp, rfl⟩) h2 h3 h4 h5
            · cases he
          · rename_i hcd
            replace hcd : c ≠ 46 := by simpa [chDot] using hcd
            injection he with he
            subst he
            rw [htaken]
            exact .afterIndex rfl hcd hco
      | expectingName =>
        have hl := hne (by rw [hs]; simp)
        rw [hs] at he hsplit htaken
        rw [hd] at hsplit ⊢
        have htaken' : it.position = p.length + 1 := by rw [htaken]; simp [consumed]
        rcases expect_flaw hd he with ⟨h1, rfl⟩ | ⟨w, d, z, h1, h2, h3, h4, h5, rfl⟩
        · rw [htaken']
          exact .nameStart (sep := [46]) (.inr ⟨hl, rfl⟩) h1 (fun e => absurd e hl)
        · rw [htaken', h1]
          exact .nameChar (sep := [46]) (.inr ⟨hl, rfl⟩) h2 h3 h4 h5

/-! ### The text determines it -/

theorem parts_same {limit : Nat} : ∀ {cs : List PathComponent} {p q x y : Str}, Parts limit p cs → Parts limit q cs →
    p ++ x = q ++ y → p = q := by
  intro cs p q x y h
  induction h generalizing q x y with
  | nil => intro h'; cases h'; intros; rfl
  | name hn _ ih =>
    intro h' e
    cases h' with
    | name hn' h'' =>
      simp only [List.append_assoc, List.cons_append, List.nil_append, List.cons.injEq, true_and, List.append_cancel_left_eq] at e
      rw [ih h'' e]
  | @index ds rest i cs hi _ ih =>
    intro h' e
    cases h' with
    | @index ds' rest' _ _ hi' h'' =>
      simp only [List.append_assoc, List.cons_append, List.nil_append, List.cons.injEq, true_and] at e
      have := split_unique (P := fun b : UInt8 => ¬ Digit b) e (by simp [Digit]) (by simp [Digit])
        (fun a ha h => h (hi.digits a ha)) (fun a ha h => h (hi'.digits a ha))
      obtain ⟨rfl, -⟩ := this
      simp only [List.append_cancel_left_eq, List.cons.injEq, true_and] at e
      rw [ih h'' e]

theorem path_same {limit : Nat} {cs : List PathComponent} {p q x y : Str} (h : Path limit p cs) (h' : Path limit q cs)
    (e : p ++ x = q ++ y) : p = q := by
  cases h with
  | empty => cases h'; rfl
  | name hn hp =>
    cases h' with
    | name hn' hp' =>
      simp only [List.append_assoc, List.append_cancel_left_eq] at e
      rw [parts_same hp hp' e]
  | index hi hp =>
    cases h' with
    | index hi' hp' => 
      have := parts_same (.index hi hp) (.index hi' hp') e
      exact this

theorem sep_unique {last : Option PathComponent} {s s' : Str} (h : Sep last s) (h' : Sep last s') : s = s' := by
  rcases h with ⟨h, rfl⟩ | ⟨h, rfl⟩ <;> rcases h' with ⟨h', rfl⟩ | ⟨h', rfl⟩ <;> first | rfl | exact absurd h' h | exact absurd h h'

theorem isName_head {w : Str} (h : IsName w) : ∃ b x, w = b :: x ∧ NameStart b := by
  cases h with
  | mk b x h => exact ⟨b, x, rfl, h⟩

theorem isName_chars {w : Str} (h : IsName w) : ∀ c ∈ w, NameChar c := by
  cases h with
  | mk b x h h' =>
    intro c hc
    rcases List.mem_cons.1 hc with rfl | hc
    · rcases h with h | h
      · exact .inl h
      · exact .inr (.inr h)
    · exact h' c hc

theorem digits_split {ds ds' x y : Str} {b b' : UInt8} (h : ds ++ b :: x = ds' ++ b' :: y) (hd : ∀ d ∈ ds, Digit d)
    (hd' : ∀ d ∈ ds', Digit d) (hb : ¬ Digit b) (hb' : ¬ Digit b') : ds = ds' ∧ b = b' :=
  split_unique (P := fun b : UInt8 => ¬ Digit b) h hb hb' (fun a ha h => h (hd a ha)) (fun a ha h => h (hd' a ha))

/-- What follows an opening bracket. -/
inductive IndexPiece (limit : Nat) (n : Nat) : Str → Reason → Prop where
  | digit {ds b rest} : (∀ d ∈ ds, Digit d) → ¬ Digit b → b ≠ 93 → IndexPiece limit n (ds ++ b :: rest) (.invalidCharacter (n + 1 + ds.length))
  | unclosed {ds} : (∀ d ∈ ds, Digit d) → IndexPiece limit n ds .unclosedIndex
  | empty {rest} : IndexPiece limit n (93 :: rest) .emptyIndex
  | tooLarge {ds rest} : ds ≠ [] → (∀ d ∈ ds, Digit d) → IndexPiece limit n (ds ++ 93 :: rest) (.invalidIndexValue true)

theorem close_not_digit : ¬ Digit 93 := by simp [Digit]

theorem indexPiece_unique {limit n : Nat} {y : Str} {r r' : Reason} (h : IndexPiece limit n y r) (h' : IndexPiece limit n y r') :
    r = r' := by
  generalize hy : y = z at h'
  cases h with
  | digit h1 h2 h3 => cases h' with
    | digit g1 g2 g3 => obtain ⟨rfl, rfl⟩ := digits_split hy h1 g1 h2 g2; rfl
    | unclosed g1 => subst hy; exact absurd (g1 _ (by simp)) h2
    | empty => exact absurd (digits_split (ds' := []) hy h1 (by simp) h2 close_not_digit).2 h3
    | tooLarge g1 g2 => exact absurd (digits_split hy h1 g2 h2 close_not_digit).2 h3
  | unclosed h1 => cases h' with
    | digit g1 g2 g3 => subst hy; exact absurd (h1 _ (by simp)) g2
    | unclosed => rfl
    | empty => subst hy; exact absurd (h1 _ (by simp)) close_not_digit
    | tooLarge => subst hy; exact absurd (h1 _ (by simp)) close_not_digit
  | empty => cases h' with
    | digit g1 g2 g3 => exact absurd (digits_split (ds := []) hy (by simp) g1 close_not_digit g2).2.symm g3
    | unclosed g1 => subst hy; exact absurd (g1 _ (by simp)) close_not_digit
    | empty => rfl
    | tooLarge g1 g2 => exact absurd (digits_split (ds := []) hy (by simp) g2 close_not_digit close_not_digit).1.symm g1
  | tooLarge h1 h2 => cases h' with
    | digit g1 g2 g3 => exact absurd (digits_split hy h2 g1 close_not_digit g2).2.symm g3
    | unclosed g1 => subst hy; exact absurd (g1 _ (by simp)) close_not_digit
    | empty => exact absurd (digits_split (ds' := []) hy h2 (by simp) close_not_digit close_not_digit).1 h1
    | tooLarge => rfl

/-- What is wrong, by what comes first. -/
theorem piece_cases {limit n : Nat} {last : Option PathComponent} {x : Str} {r : Reason} (h : Piece limit last n x r) :
    (∃ y, x = 91 :: y ∧ IndexPiece limit n y r) ∨
    (∃ b y i, x = b :: y ∧ last = some (.index i) ∧ b ≠ 46 ∧ b ≠ 91 ∧ r = .invalidCharacter n) ∨
    ∃ sep b y, Sep last sep ∧ x = sep ++ b :: y ∧ (sep = [] → b ≠ 91) ∧
      ((¬ NameStart b ∧ r = .invalidCharacter (n + sep.length)) ∨
        ∃ w d z, b :: y = w ++ d :: z ∧ IsName w ∧ ¬ NameChar d ∧ r = .invalidCharacter (n + sep.length + w.length)) := by
  cases h with
  | @nameStart sep b rest h1 h2 h3 =>
    refine .inr (.inr ⟨sep, b, rest, h1, rfl, fun e => h3 ?_, .inl ⟨h2, rfl⟩⟩)
    rcases h1 with h1 | h1
    · exact h1.1
    · rw [h1.2] at e; cases e
  | @nameChar sep w b rest h1 h2 h3 h4 h5 =>
    obtain ⟨b', x', rfl, hb⟩ := isName_head h2
    refine .inr (.inr ⟨sep, b', x' ++ b :: rest, h1, by simp, fun _ => ?_, .inr ⟨_, b, rest, rfl, h2, h3, rfl⟩⟩)
    rintro rfl
    simp [NameStart, Letter] at hb
  | afterIndex h1 h2 h3 => exact .inr (.inl ⟨_, _, _, rfl, h1, h2, h3, rfl⟩)
  | digit h1 h2 h3 => exact .inl ⟨_, rfl, .digit h1 h2 h3⟩
  | unclosed h1 => exact .inl ⟨_, rfl, .unclosed h1⟩
  | empty => exact .inl ⟨_, rfl, .empty⟩
  | tooLarge h1 h2 => exact .inl ⟨_, rfl, .tooLarge h1 h2⟩

theorem piece_unique {limit n : Nat} {last : Option PathComponent} {x : Str} {r r' : Reason} (h : Piece limit last n x r)
    (h' : Piece limit last n x r') : r = r' := by
  have sepHead : ∀ {sep : Str} {b : UInt8} {y z : Str}, Sep last sep → (sep = [] → b ≠ 91) → sep ++ b :: y ≠ 91 :: z := by
    rintro sep b y z (⟨_, rfl⟩ | ⟨_, rfl⟩) h e
    · injection e with e; exact h rfl e
    · injection e with e; cases e
  have sepIndex : ∀ {sep : Str} {b b' : UInt8} {y z : Str} {i : Nat}, Sep last sep → last = some (.index i) → b' ≠ 46 →
      sep ++ b :: y ≠ b' :: z := by
    rintro sep b b' y z i (⟨h, _⟩ | ⟨_, rfl⟩) hl hb e
    · rw [hl] at h; cases h
    · injection e with e; exact hb e.symm
  have start : ∀ {w : Str} {b d : UInt8} {y z : Str}, b :: y = w ++ d :: z → IsName w → NameStart b := by
    intro w b d y z e hw
    obtain ⟨b', x', rfl, hb⟩ := isName_head hw
    injection e with e
    exact e ▸ hb
  rcases piece_cases h with ⟨y, rfl, h1⟩ | ⟨b, y, i, rfl, h1, h2, h3, rfl⟩ | ⟨sep, b, y, h1, rfl, h2, h3⟩ <;>
    rcases piece_cases h' with ⟨y', e, g1⟩ | ⟨b', y', i', e, g1, g2, g3, rfl⟩ | ⟨sep', b', y', g1, e, g2, g3⟩
  · injection e with _ e
    subst e
    exact indexPiece_unique h1 g1
  · injection e with e; exact absurd e.symm g3
  · exact absurd e.symm (sepHead g1 g2)
  · injection e with e; exact absurd e h3
  · rfl
  · exact absurd e.symm (sepIndex g1 h1 h2)
  · exact absurd e (sepHead h1 h2)
  · exact absurd e (sepIndex h1 g1 g2)
  · obtain rfl := sep_unique h1 g1
    rw [List.append_cancel_left_eq] at e
    injection e with e1 e2
    subst e1 e2
    rcases h3 with ⟨h3, rfl⟩ | ⟨w, d, z, h3, h4, h5, rfl⟩ <;> rcases g3 with ⟨g3, rfl⟩ | ⟨w', d', z', g3, g4, g5, rfl⟩
    · rfl
    · exact absurd (start g3 g4) h3
    · exact absurd (start h3 h4) g3
    · have := split_unique (P := fun b : UInt8 => ¬ NameChar b) (h3.symm.trans g3) h5 g5
        (fun a ha h => h (isName_chars h4 a ha)) (fun a ha h => h (isName_chars g4 a ha))
      rw [this.1]

theorem flaw_same {limit : Nat} {s : Str} {cs : List PathComponent} {r r' : Reason} (h : Flaw limit s cs r)
    (h' : Flaw limit s cs r') : r = r' := by
  obtain ⟨p, x, rfl, h1, h2⟩ := h
  obtain ⟨q, y, e, h1', h2'⟩ := h'
  obtain rfl := path_same h1 h1' e
  rw [List.append_cancel_left_eq] at e
  subst e
  exact piece_unique h2 h2'

/-! ### And it is what the iterator finds -/

theorem absIndex_piece {limit n : Nat} {last : Option PathComponent} {y : Str} {r : Reason} (hl : limit = cfg.usizeMod)
    (h : Piece limit last n (91 :: y) r) : absIndex cfg y = .bad := by
  have key : ∀ t st x, absIndex cfg y ≠ .tok t st x := by
    intro t st x ht
    obtain ⟨ds, i, hi, -, -, hr⟩ := absIndex_tok ht
    have hnd : ¬ Digit chClose := close_not_digit
    generalize hz : 91 :: y = z at h
    cases h with
    | nameStart h1 h2 h3 =>
      rcases h1 with ⟨h1, rfl⟩ | ⟨_, rfl⟩
      · injection hz with hz; exact absurd hz.symm (h3 h1)
      · injection hz with hz; cases hz
    | nameChar h1 h2 h3 =>
      rcases h1 with ⟨h1, rfl⟩ | ⟨_, rfl⟩
      · obtain ⟨b, w, rfl, hb⟩ := isName_head h2
        injection hz with hz
        subst hz
        simp [NameStart, Letter] at hb
      · injection hz with hz; cases hz
    | afterIndex h1 h2 h3 => injection hz with hz; exact absurd hz.symm h3
    | @digit ds' b rest g1 g2 g3 =>
      injection hz with _ hz
      exact g3 (digits_split (hz.symm.trans hr) g1 hi.digits g2 hnd).2
    | @unclosed ds' g1 =>
      injection hz with _ hz
      replace hz : y = ds' := hz
      rw [hr] at hz
      exact hnd (g1 _ (by rw [← hz]; simp))
    | empty =>
      injection hz with _ hz
      have := digits_split (ds := []) (hz.symm.trans hr) (by simp) hi.digits close_not_digit hnd
      exact hi.nonempty this.1.symm
    | @tooLarge ds' rest g1 g2 g3 =>
      injection hz with _ hz
      replace hz : y = ds' ++ 93 :: rest := hz
      have := digits_split (hz.symm.trans hr) g2 hi.digits close_not_digit hnd
      have h1 := hi.fits
      rw [← hi.value, ← this.1] at h1
      omega
  have : ∀ {x}, absIndex cfg y = x → x ≠ .stop := by
    rintro x rfl
    unfold absIndex
    split
    · simp
    · split
      · split <;> simp
      · simp
  cases hx : absIndex cfg y with
  | bad => rfl
  | stop => exact absurd rfl (this hx)
  | tok t st x => exact absurd hx (key t st x)

theorem absExpect_piece {sep : Str} {limit n : Nat} {last : Option PathComponent} {b : UInt8} {y : Str} {r : Reason}
    (hs : Sep last sep) (h91 : last = none → b ≠ 91) (h : Piece limit last n (sep ++ b :: y) r) : absExpect (b :: y) = .bad := by
  rw [absExpect]
  split
  · rename_i hb
    have hns : NameStart b := (startByte_iff b).1 hb
    have hnot : b ≠ 91 ∧ b ≠ 46 := by constructor <;> (rintro rfl; simp [NameStart, Letter] at hns)
    generalize hz : sep ++ b :: y = z at h
    have hex : ∃ w d x, b :: y = w ++ d :: x ∧ IsName w ∧ ¬ NameChar d ∧ d ≠ 46 ∧ d ≠ 91 := by
      have bracket : ∀ {x : Str}, sep ++ b :: y ≠ 91 :: x := by
        intro x e
        rcases hs with ⟨_, rfl⟩ | ⟨_, rfl⟩
        · injection e with e; exact hnot.1 e
        · injection e with e; cases e
      cases h with
      | nameStart h1 h2 h3 =>
        obtain rfl := sep_unique hs h1
        rw [List.append_cancel_left_eq] at hz
        injection hz with hz
        exact absurd (hz ▸ hns) h2
      | nameChar h1 h2 h3 h4 h5 =>
        obtain rfl := sep_unique hs h1
        rw [List.append_assoc, List.append_cancel_left_eq] at hz
        exact ⟨_, _, _, hz, h2, h3, h4, h5⟩
      | afterIndex h1 h2 h3 =>
        rcases hs with ⟨e, rfl⟩ | ⟨_, rfl⟩
        · rw [h1] at e; cases e
        · injection hz with hz; exact absurd hz.symm h2
      | digit => exact absurd hz bracket
      | unclosed => exact absurd hz bracket
      | empty => exact absurd hz bracket
      | tooLarge => exact absurd hz bracket
    obtain ⟨w, d, x, e, h1, h2, h3, h4⟩ := hex
    rw [e]
    refine absName_bad (fun c hc => (nameByte_iff c).2 (isName_chars h1 c hc)) ?_ h4 h3 x
    cases hd : nameByte d with
    | false => rfl
    | true => exact absurd ((nameByte_iff d).1 hd) h2
  · rfl

theorem steps_last {it it2 : PathIter} {cs : List PathComponent} (h : Steps cfg it cs it2) : ∀ {pre c}, cs = pre ++ [c] →
    ∃ it1, Steps cfg it pre it1 ∧ it1.nextT cfg = (.ok (some c), it2) := by
  induction h with
  | refl => intro pre c e; simp at e
  | @step a b d c' cs' hn hs ih =>
    intro pre c e
    cases pre with
    | nil =>
      simp only [List.nil_append, List.cons.injEq] at e
      obtain ⟨rfl, rfl⟩ := e
      cases hs
      exact ⟨a, .refl, hn⟩
    | cons x pre =>
      simp only [List.cons_append, List.cons.injEq] at e
      obtain ⟨rfl, e⟩ := e
      obtain ⟨it1, h1, h2⟩ := ih e
      exact ⟨it1, .step hn h1, h2⟩

/-- After an index the iterator is where an index ends. -/
theorem steps_index {s : Str} (hu : Utf8Like s) {cs : List PathComponent} {it : PathIter} {i : Nat}
    (h : Steps cfg (PathIter.new s) cs it) (hl : cs.getLast? = some (.index i)) : it.state = .afterIndex := by
  obtain ⟨pre, rfl⟩ := List.getLast?_eq_some_iff.1 hl
  obtain ⟨it1, h1, h2⟩ := steps_last h rfl
  obtain ⟨p, hr⟩ := steps_read h1 (read_new (cfg := cfg) hu)
  have hag := next_agrees cfg it1 hr.inv
  rw [nextT_eq h2] at hag
  generalize hx : absNext cfg it1.state (it1.path.drop it1.position) = x at hag
  cases hag with
  | tok e1 e2 e3 e4 =>
    obtain ⟨⟨n, _, e, _⟩ | ⟨ds, j, _, _, e, _⟩, _⟩ := absNext_step hr.notInside hx
    · cases e
    · exact e2.trans e

theorem yields_steps {it : PathIter} {pre post : List PathComponent} {b : Bool} (h : Yields cfg it (pre ++ post) b) :
    ∃ it', Steps cfg it pre it' ∧ Yields cfg it' post b := by
  induction pre generalizing it with
  | nil => exact ⟨it, .refl, h⟩
  | cons c pre ih =>
    cases h with
    | tok h1 h2 =>
      obtain ⟨it', h3, h4⟩ := ih h2
      refine ⟨it', .step ?_ h3, h4⟩
      rw [← nextT_outcome] at h1
      rcases hx : it.nextT cfg with ⟨x, it''⟩
      rw [hx] at h1
      simp only [forget, Prod.mk.injEq] at h1
      rw [h1.2]
      rw [Told.outcome_ok.1 h1.1]

theorem bad_of_piece {s p : Str} {cs : List PathComponent} {it : PathIter} {r : Reason} (hr : Read cfg s cs it p)
    (hidx : ∀ i, cs.getLast? = some (.index i) → it.state = .afterIndex)
    (h : Piece cfg.usizeMod cs.getLast? p.length (consumed it.state ++ it.path.drop it.position) r) :
    absNext cfg it.state (it.path.drop it.position) = .bad := by
  have hstart : it.state = .start → cs.getLast? = none := fun e => by rw [hr.start.1 e]; rfl
  have hne : it.state ≠ .start → cs.getLast? ≠ none := fun e e' => e (hr.start.2 (List.getLast?_eq_none_iff.1 e'))
  have hafter : it.state = .afterIndex → ∃ i, cs.getLast? = some (.index i) := fun e =>
    last_index (fun e' => by rw [hr.start.2 e'] at e; cases e) fun n hn => hr.name n hn e
  have hnonempty : ∀ {l r}, ¬ Piece cfg.usizeMod l p.length [] r := by
    intro l r h
    generalize hz : ([] : Str) = z at h
    cases h <;> simp at hz
  cases hs : it.state with
  | insideName => exact absurd hs hr.notInside
  | error => exact absurd hs hr.notError
  | done => rw [hs, hr.done hs] at h; exact absurd h hnonempty
  | start =>
    have hl := hstart hs
    rw [hs, hl] at h
    cases hd : it.path.drop it.position with
    | nil => rw [hd] at h; exact absurd h hnonempty
    | cons c x =>
      rw [hd] at h
      rw [absNext]
      split
      · rename_i hc
        subst hc
        exact absIndex_piece rfl h
      · rename_i hc
        exact absExpect_piece (sep := []) (.inl ⟨rfl, rfl⟩) (fun _ => hc) h
  | insideIndex =>
    rw [hs] at h
    cases hd : it.path.drop it.position with
    | nil =>
      exfalso
      rw [hd] at h
      have hname : ∃ n, cs.getLast? = some (.name n) := by
        cases hl : cs.getLast? with
        | none => exact absurd hl (hne (by rw [hs]; simp))
        | some c =>
          cases c with
          | name n => exact ⟨n, rfl⟩
          | index i => have := hidx i hl; rw [hs] at this; cases this
      obtain ⟨n, hn⟩ := hname
      rw [hn] at h
      generalize hz : consumed .insideIndex ++ [] = z at h
      cases h with
      | nameStart h1 h2 h3 =>
        rcases h1 with ⟨h1, rfl⟩ | ⟨_, rfl⟩
        · cases h1
        · cases hz
      | nameChar h1 h2 h3 =>
        rcases h1 with ⟨h1, rfl⟩ | ⟨_, rfl⟩
        · cases h1
        · cases hz
      | afterIndex h1 => cases h1
      | digit => simp [consumed] at hz
      | unclosed h1 h2 =>
        injection hz with _ hz
        exact h2 hz.symm n rfl
      | empty => cases hz
      | tooLarge => simp [consumed] at hz
    | cons c x =>
      rw [hd] at h
      exact absIndex_piece rfl h
  | afterIndex =>
    obtain ⟨i, hi⟩ := hafter hs
    rw [hs, hi] at h
    cases hd : it.path.drop it.position with
    | nil => rw [hd] at h; exact absurd h hnonempty
    | cons c x =>
      rw [hd] at h
      by_cases hc : c = chOpen
      · subst hc
        have := absIndex_piece (cfg := cfg) rfl h
        simpa [absNext] using this
      · by_cases hc' : c = chDot
        · subst hc'
          cases x with
          | nil =>
            exfalso
            generalize hz : consumed .afterIndex ++ [chDot] = z at h
            cases h with
            | nameStart h1 h2 h3 =>
              rcases h1 with ⟨h1, rfl⟩ | ⟨_, rfl⟩
              · cases h1
              · cases hz
            | nameChar h1 h2 h3 =>
              rcases h1 with ⟨h1, rfl⟩ | ⟨_, rfl⟩
              · cases h1
              · simp [consumed] at hz
            | afterIndex h1 h2 => injection hz with hz; exact h2 hz.symm
            | digit => cases hz
            | unclosed h1 h2 => cases hz
            | empty => cases hz
            | tooLarge => cases hz
          | cons d x =>
            have := absExpect_piece (sep := [46]) (.inr ⟨by simp, rfl⟩) (by simp) h
            simpa [absNext, show ¬ chDot = chOpen by decide] using this
        · simp [absNext, hc, hc']
  | expectingName =>
    have hl := hne (by rw [hs]; simp)
    rw [hs] at h
    cases hd : it.path.drop it.position with
    | nil =>
      exfalso
      rw [hd] at h
      generalize hz : consumed .expectingName ++ [] = z at h
      cases h with
      | nameStart h1 h2 h3 =>
        rcases h1 with ⟨h1, rfl⟩ | ⟨_, rfl⟩
        · exact hl h1
        · cases hz
      | nameChar h1 h2 h3 =>
        rcases h1 with ⟨h1, rfl⟩ | ⟨_, rfl⟩
        · exact hl h1
        · simp [consumed] at hz
      | afterIndex h1 h2 => injection hz with hz; exact h2 hz.symm
      | digit => cases hz
      | unclosed h1 h2 => cases hz
      | empty => cases hz
      | tooLarge => cases hz
    | cons c x =>
      rw [hd] at h
      have := absExpect_piece (sep := [46]) (.inr ⟨hl, rfl⟩) (fun e => absurd e hl) h
      simpa [absNext] using this

theorem reads_of_flaw {limit : Nat} {s : Str} {cs : List PathComponent} {r : Reason} (h : Flaw limit s cs r) :
    Reads limit s cs := by
  obtain ⟨p, x, e, h1, h2⟩ := h
  refine ⟨p, x, e, h1, fun n hn => .inr ?_⟩
  rw [hn] at h2
  rcases piece_cases h2 with ⟨y, rfl, -⟩ | ⟨_, _, _, _, h, _⟩ | ⟨sep, b, y, ⟨h, _⟩ | ⟨_, rfl⟩, rfl, _⟩
  · exact ⟨y, .inr rfl⟩
  · cases h
  · cases h
  · exact ⟨_, .inl rfl⟩

theorem yieldsT_steps {it it' : PathIter} {cs : List PathComponent} {x : Option Reason} (h : Steps cfg it cs it')
    (h' : YieldsT cfg it' [] x) : YieldsT cfg it cs x := by
  induction h with
  | refl => exact h'
  | step hn _ ih => exact .tok hn (ih h')

theorem err_of_next {it : PathIter} {e : ErrorKind} (h : (it.next cfg).1 = .err e) : ∃ r, (it.nextT cfg).1 = .err r := by
  rw [← nextT_outcome] at h
  rcases hx : it.nextT cfg with ⟨x, it'⟩
  rw [hx] at h
  simp only [forget] at h
  cases x with
  | err r => exact ⟨r, rfl⟩
  | _ => cases h

/-- The flaw of a text is the error of the iterator. -/
theorem flaw_iff {s : Str} (hu : Utf8Like s) {cs : List PathComponent} {r : Reason} :
    Flaw cfg.usizeMod s cs r ↔ YieldsT cfg (PathIter.new s) cs (some r) := by
  constructor
  · intro h
    obtain ⟨ds, b, ht⟩ := absToks_total cfg _ .start s (Nat.le_refl _) (by simp)
    obtain ⟨post, rfl⟩ := reads_prefix (reads_of_flaw h) ht
    have hy := yields_of_absToks ht _ (pathInv_new hu) rfl (by simp [PathIter.new])
    obtain ⟨it, h1, h2⟩ := yields_steps hy
    obtain ⟨p, hr⟩ := steps_read h1 (read_new (cfg := cfg) hu)
    rw [List.nil_append] at hr
    obtain ⟨q, x, e, g1, g2⟩ := id h
    have hpq := path_same hr.isPath g1 (hr.split.symm.trans e)
    subst hpq
    have hx := hr.split.symm.trans e
    rw [List.append_cancel_left_eq] at hx
    subst hx
    have hbad := bad_of_piece hr (fun i hi => steps_index hu h1 hi) g2
    have hag := next_agrees cfg it hr.inv
    rw [hbad] at hag
    generalize hn : it.next cfg = y at hag
    cases hag with
    | bad =>
      obtain ⟨r', hr'⟩ := err_of_next (show (it.next cfg).1 = .err _ by rw [hn])
      have := flaw_same h (piece_of_err hr hr')
      subst this
      exact yieldsT_steps h1 (.fail hr')
  · intro h
    have : ∀ {it : PathIter} {cs : List PathComponent} {x : Option Reason}, YieldsT cfg it cs x → x = some r →
        ∃ it', Steps cfg it cs it' ∧ (it'.nextT cfg).1 = .err r := by
      intro it cs x g
      clear h
      induction g with
      | stop => intro e; cases e
      | fail g => intro e; injection e with e; subst e; exact ⟨_, .refl, g⟩
      | tok g _ ih => intro e; obtain ⟨it', h1, h2⟩ := ih e; exact ⟨it', .step g h1, h2⟩
    obtain ⟨it, h1, h2⟩ := this h rfl
    obtain ⟨p, hr⟩ := steps_read h1 (read_new (cfg := cfg) hu)
    exact piece_of_err hr h2

theorem yieldsT_of_yields {it : PathIter} {cs : List PathComponent} {b : Bool} (h : Yields cfg it cs b) :
    ∃ x, YieldsT cfg it cs x ∧ (x = none ↔ b = true) := by
  induction h with
  | @stop it h =>
    refine ⟨none, .stop ?_, by simp⟩
    rw [← nextT_outcome] at h
    exact Told.outcome_ok.1 h
  | fail h => obtain ⟨r, hr⟩ := err_of_next h; exact ⟨some r, .fail hr, by simp⟩
  | @tok it it' c cs b h _ ih =>
    obtain ⟨x, h1, h2⟩ := ih
    refine ⟨x, .tok ?_ h1, h2⟩
    rw [← nextT_outcome] at h
    rcases hx : it.nextT cfg with ⟨y, it''⟩
    rw [hx] at h
    simp only [forget, Prod.mk.injEq] at h
    rw [h.2, Told.outcome_ok.1 h.1]

theorem yields_of_yieldsT {it : PathIter} {cs : List PathComponent} {x : Option Reason} (h : YieldsT cfg it cs x) :
    Yields cfg it cs x.isNone := by
  induction h with
  | @stop it h => refine .stop ?_; rw [← nextT_outcome]; show (it.nextT cfg).1.outcome = _; rw [h]; rfl
  | @fail it r h => refine .fail (e := r.kind) ?_; rw [← nextT_outcome]; show (it.nextT cfg).1.outcome = _; rw [h]; rfl
  | tok h _ ih => exact .tok (nextT_eq h) ih

end Btf
