import Verif.Props.CacheWork
import Verif.Props.Lookup
import Verif.Spec.CacheSize

/-!
# Property C107: how large the cache gets

Entries are never removed. There are never more of them than calls were answered, and failed lookups add nothing. But
there is no other limit: the empty path is answered for every id, and an index may be written with any number of leading
zeros, so a user of the crate who passes on paths from elsewhere can make the cache as large as he likes.
-/

namespace Btf.Props

open Btf Spec TypeInformation CacheState

variable {cfg : Cfg} {ti : TypeInformation}

theorem entries_insert {s s' : CacheState} {n : Nat} {key : CacheKey} {r : UInt32 × Offset} (h : Entries s n)
    (hc : s'.cache = fun k => if k = key then some r else s.cache k) : ∃ n', Entries s' n' ∧ n' ≤ n + 1 ∧
      (s.cache key = none → n' = n + 1) := by
  obtain ⟨keys, h1, h2, h3⟩ := h
  by_cases hk : key ∈ keys
  · refine ⟨n, ⟨keys, h1, h2, fun k => ?_⟩, by omega, fun hn => absurd hn ((h3 key).2 hk)⟩
    rw [hc]
    by_cases he : k = key
    · subst he; simpa using hk
    · simpa [he] using h3 k
  · refine ⟨n + 1, ⟨key :: keys, List.nodup_cons.2 ⟨hk, h1⟩, by simp [h2], fun k => ?_⟩, Nat.le_refl _, fun _ => rfl⟩
    rw [hc]
    by_cases he : k = key
    · subst he; simp
    · simpa [he] using h3 k

/-- C107: the number of entries is at most the number of calls that were answered. -/
theorem cache_entries_le (cfg : Cfg) (ti : TypeInformation) (s : CacheState) (h : Reachable cfg ti s) :
    ∃ n, Entries s n ∧ n ≤ s.history.countP answers := by
  induction h with
  | init => exact ⟨0, ⟨[], by simp, rfl, by simp [CacheState.init]⟩, by simp⟩
  | step hr hs ih =>
    obtain ⟨n, hn, hle⟩ := ih
    cases hs with
    | insert key r h0 =>
      obtain ⟨n', h1, h2, -⟩ := entries_insert (s' := ((CacheState.insert _ key r).finish _ (.outcome (.ok r)))) hn rfl
      refine ⟨n', h1, ?_⟩
      simp only [finish, CacheState.insert, goto, List.countP_cons, answers, if_true]
      omega
    | insertPanic key r b h0 =>
      cases b with
      | false =>
        refine ⟨n, hn, ?_⟩
        simp only [finish, goto, List.countP_cons, answers]
        simp only [Bool.false_eq_true, if_false]
        omega
      | true =>
        obtain ⟨n', h1, h2, -⟩ :=
          entries_insert (s' := ({ (CacheState.insert _ key r) with poisoned := true }.finish _ .insertPanic)) hn rfl
        refine ⟨n', h1, ?_⟩
        simp only [finish, CacheState.insert, goto, List.countP_cons, answers, if_true]
        omega
    | hit key r h0 h1 =>
      refine ⟨n, hn, ?_⟩
      simp only [finish, goto, List.countP_cons, answers, if_true]
      omega
    | call key h0 => exact ⟨n, hn, by simpa [answers, goto] using hle⟩
    | lockRead key h0 h1 h2 => exact ⟨n, hn, hle⟩
    | readPoisoned key h0 h1 h2 => exact ⟨n, hn, hle⟩
    | miss key h0 h1 => exact ⟨n, hn, hle⟩
    | computed key r f h0 h1 => exact ⟨n, hn, hle⟩
    | failed key e f h0 h1 => exact ⟨n, hn, by simpa [answers, finish, goto] using hle⟩
    | panicked key f h0 h1 => exact ⟨n, hn, by simpa [answers, finish, goto] using hle⟩
    | lockWrite key r h0 h1 h2 h3 => exact ⟨n, hn, hle⟩
    | writePoisoned key r h0 h1 h2 h3 =>
      refine ⟨n, hn, ?_⟩
      simp only [finish, goto, List.countP_cons, answers, if_true]
      omega

/-- C107: as long as no insertion has panicked, there is an entry for exactly those arguments for which a call was
answered; so a lookup that fails leaves nothing. -/
theorem cache_exactly (cfg : Cfg) (ti : TypeInformation) (s : CacheState) (h : Reachable cfg ti s)
    (hp : ∀ j, .ended j .insertPanic ∉ s.history) (t : UInt32) (p : String) :
    s.cache ⟨t, str p⟩ ≠ none ↔ ∃ i r, Ended s.history i ⟨t, str p⟩ (.outcome (.ok r)) := by
  constructor
  · intro hc
    obtain ⟨r, hr⟩ := Option.ne_none_iff_exists'.1 hc
    obtain ⟨ho, i, e, he⟩ := cache_entries cfg ti s h t (str p) r hr
    cases e with
    | insertPanic =>
      obtain ⟨l, m, e, h1, -⟩ := he
      exact absurd (by rw [h1]; simp) (hp i)
    | outcome o =>
      have := offset_of_deterministic cfg ti t p _ _ (cache_invisible cfg ti s h i t (str p) o he) ho
      subst this
      exact ⟨i, r, he⟩
  · rintro ⟨i, r, he⟩
    rw [cache_remembers cfg ti s h hp i t p r he]
    simp

/-- One thread, all others idle: it calls with arguments that are not in the cache. -/
theorem grow {s : CacheState} (hi : ∀ j, s.pc j = .idle) (hp : s.poisoned = false) {key : CacheKey} {r : UInt32 × Offset}
    (ho : OffsetOf cfg ti key.tid key.path (.ok r)) (hc : s.cache key = none) :
    ∃ l s', Moves cfg ti s l s' ∧ (∀ j, s'.pc j = .idle) ∧ s'.poisoned = false ∧
      s'.cache = fun k => if k = key then some r else s.cache k := by
  obtain ⟨-, fuel, hf⟩ := ho
  refine ⟨[0, 0, 0, 0, 0, 0], _, .cons (.call key (hi 0)) <|
    .cons (.lockRead key (by simp [goto]) ?_ hp) <| .cons (.miss key (by simp [goto]) hc) <|
    .cons (.computed key r fuel (by simp [goto]) hf) <| .cons (.lockWrite key r (by simp [goto]) ?_ ?_ hp) <|
    .cons (.insert key r (by simp [goto])) (.nil _), ?_, hp, rfl⟩
  · rintro ⟨j, k, r', h⟩
    by_cases hj : j = 0 <;> simp [goto, hj, hi] at h
  · rintro ⟨j, k, r', h⟩
    by_cases hj : j = 0 <;> simp [goto, hj, hi] at h
  · rintro ⟨j, k, h⟩
    by_cases hj : j = 0 <;> simp [goto, hj, hi] at h
  · intro j
    by_cases hj : j = 0 <;> simp [goto, finish, CacheState.insert, hj, hi]

/-- Any number of different calls that succeed: one entry for each. -/
theorem cache_grows (cfg : Cfg) (ti : TypeInformation) (keys : List CacheKey) (hd : keys.Nodup)
    (hok : ∀ key ∈ keys, ∃ r, OffsetOf cfg ti key.tid key.path (.ok r)) :
    ∃ s, Reachable cfg ti s ∧ Entries s keys.length := by
  suffices h : ∃ s, Reachable cfg ti s ∧ (∀ j, s.pc j = .idle) ∧ s.poisoned = false ∧ ∀ k, s.cache k ≠ none ↔ k ∈ keys by
    obtain ⟨s, h1, -, -, h2⟩ := h
    exact ⟨s, h1, keys, hd, rfl, h2⟩
  induction keys with
  | nil => exact ⟨_, .init, fun _ => rfl, rfl, by simp [CacheState.init]⟩
  | cons key keys ih =>
    obtain ⟨hk, hd⟩ := List.nodup_cons.1 hd
    obtain ⟨s, h1, h2, h3, h4⟩ := ih hd fun k hk => hok k (List.mem_cons_of_mem _ hk)
    obtain ⟨r, hr⟩ := hok key (List.mem_cons_self ..)
    have hn : s.cache key = none := by
      cases hc : s.cache key with
      | none => rfl
      | some x => exact absurd ((h4 key).1 (by simp [hc])) hk
    obtain ⟨l, s', hm, h5, h6, h7⟩ := grow h2 h3 hr hn
    refine ⟨s', moves_reachable hm h1, h5, h6, fun k => ?_⟩
    rw [h7]
    by_cases he : k = key
    · subst he; simp
    · simpa [he] using h4 k

/-- C107: for every file, even an empty one, there can be an entry for each of the 2^32 ids, existing or not (the path is
empty). -/
theorem cache_all_ids (cfg : Cfg) (ti : TypeInformation) (n : Nat) (hn : n ≤ 2 ^ 32) :
    ∃ s, Reachable cfg ti s ∧ Entries s n := by
  have := cache_grows cfg ti ((List.range n).map fun i => ⟨UInt32.ofNat i, str ""⟩) ?_ ?_
  · simpa using this
  · refine List.Nodup.map_on (fun a ha b hb hab => ?_) List.nodup_range
    have h := congrArg (fun k : CacheKey => k.tid.toNat) hab
    simp only [List.mem_range] at ha hb
    simpa [Nat.mod_eq_of_lt (show a < 4294967296 by omega), Nat.mod_eq_of_lt (show b < 4294967296 by omega)] using h
  · intro key hk
    obtain ⟨i, -, rfl⟩ := List.mem_map.1 hk
    exact ⟨_, (offset_of_empty cfg ti _ _).2 rfl⟩

/-- `k + 1` zeros. -/
def zeros (k : Nat) : String := String.ofList (List.replicate (k + 1) '0')

theorem str_zeros (k : Nat) : str (zeros k) = List.replicate (k + 1) 48 := by
  rw [zeros, str, String.toList_ofList]
  generalize k + 1 = m
  induction m with
  | zero => rfl
  | succ m ih =>
    rw [List.replicate_succ, List.flatMap_cons, ih]
    rfl

theorem isIndex_zeros (limit : Nat) (hl : 0 < limit) (k : Nat) : IsIndex limit (str (zeros k)) 0 := by
  rw [str_zeros]
  refine ⟨by simp, fun d hd => ?_, ?_, hl⟩
  · rw [List.eq_of_mem_replicate hd]
    simp [Digit]
  · rw [decimal]
    generalize k + 1 = m
    induction m with
    | zero => rfl
    | succ m ih => rw [List.replicate_succ, List.foldl_cons]; exact ih

/-- C107: and if there is an array with an element (that has a size), there is no limit at all: `[0]`, `[00]`, `[000]`, …
are entries of their own. -/
theorem cache_unlimited (cfg : Cfg) (ti : TypeInformation) (t : UInt32) (hd : Header) (d : ArrayData)
    (hr : Resolves ti t (.array hd d)) (hc : d.elementCount ≠ 0) (size : Nat) (hs : SizeOf cfg ti d.elementTid (.ok size))
    (n : Nat) : ∃ s, Reachable cfg ti s ∧ Entries s n := by
  have := cache_grows cfg ti ((List.range n).map fun k => ⟨t, [91] ++ str (zeros k) ++ [93]⟩) ?_ ?_
  · simpa using this
  · refine List.Nodup.map (fun a b hab => ?_) List.nodup_range
    have h := congrArg (fun k : CacheKey => k.path.length) hab
    simpa [str_zeros] using h
  · intro key hk
    obtain ⟨k, -, rfl⟩ := List.mem_map.1 hk
    refine ⟨(d.elementTid, .byteOffset 0), (offset_of_index_ok cfg ti t hd d (zeros k) 0 hr
      (isIndex_zeros _ (by cases cfg with | mk w o => cases w <;> simp [Cfg.usizeMod]) k) _ _).2 ⟨?_, rfl, size, hs, by omega, ?_⟩⟩
    · exact Nat.pos_of_ne_zero fun h => hc (UInt32.toNat_inj.1 h)
    · simp

/-! ### Examples -/

/-- `cache_entries_le`, `cache_exactly`: after thread 0 of C49 has been answered there is one entry; thread 1 is still
waiting. -/
example : Entries inserted 1 ∧ inserted.history.countP answers = 1 ∧ (∀ j, .ended j .insertPanic ∉ inserted.history) := by
  refine ⟨⟨[sampleKey], by simp, rfl, fun k => ?_⟩, by decide, ?_⟩
  · by_cases h : k = sampleKey <;> simp [inserted, midway, finish, goto, CacheState.insert, h]
  · simp [inserted, midway, finish, goto, CacheState.insert]

/-- `cache_all_ids`: no types at all, four thousand million entries. -/
example : ∃ s, Reachable Samples.dbg TypeInformation.empty s ∧ Entries s (2 ^ 32) := cache_all_ids _ _ _ (Nat.le_refl _)

/-- `cache_grows`, `cache_unlimited`: `int[10]` (5) is enough for a million entries. -/
example : ∃ s, Reachable Samples.dbg Samples.zoo s ∧ Entries s 1000000 :=
  cache_unlimited Samples.dbg Samples.zoo 5 _ _ zoo_5 (by decide) 4 ⟨by simp, 2, by decide +kernel⟩ _

end Btf.Props
