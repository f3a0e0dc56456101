import Verif.Proofs.DebugText
import Verif.Props.Examples
import Verif.Props.Message
import Verif.Samples

/-!
# C87: the printed text
-/

namespace Btf.Props

open Btf Spec Examples TypeInformation

variable {cfg cfg' : Cfg} {R R' : Readable} {f f' : List UInt8}

/-! ### What is printed -/

theorem printed_string {f : List UInt8} {fh : FileHeader} {o : UInt32} {s : Str} (h : StringAt f fh o s) :
    ∃ x, PrintsString s x := by
  obtain ⟨-, bs, -, -, -, rfl⟩ := h
  exact ⟨_, .bytes⟩

theorem printed_name {f : List UInt8} {fh : FileHeader} {o : UInt32} {s : Option Str} (h : NameAt f fh o s) :
    ∃ x, PrintsName s x := by
  cases s with
  | none => exact ⟨_, .none⟩
  | some s =>
    obtain ⟨x, hx⟩ := printed_string h.2
    exact ⟨_, .some hx⟩

theorem printed_items {α : Type} {q : α → String → Prop} : ∀ {l : List α}, (∀ a ∈ l, ∃ x, q a x) → ∃ x, PrintsList q l x := by
  intro l h
  have : ∃ xs, List.Forall₂ q l xs := by
    induction l with
    | nil => exact ⟨[], .nil⟩
    | cons a l ih =>
      obtain ⟨x, hx⟩ := h a (by simp)
      obtain ⟨xs, hxs⟩ := ih fun b hb => h b (by simp [hb])
      exact ⟨_, .cons hx hxs⟩
  obtain ⟨xs, h⟩ := this
  exact ⟨_, .list h⟩

theorem items_mem {α : Type} {item : Nat → α → Prop} {size pos : Nat} {l : List α} (h : Items item size pos l) {a : α}
    (ha : a ∈ l) : ∃ p, item p a := by
  obtain ⟨i, hi, rfl⟩ := List.mem_iff_getElem.1 ha
  exact ⟨_, h i hi⟩

theorem printed_body {dl : Dialect} {e : Endianness} {fh : FileHeader} {th : Header} {pos : Nat} {v : TypeVariant}
    (h : Body dl f e fh th pos v) : ∃ x, Prints v x := by
  have members : ∀ {k : Bool} {p : Nat} {l : List Member}, Items (MemberAt f e fh k) 12 p l → ∃ x, PrintsList PrintsMember l x := by
    intro k p l hl
    refine printed_items fun m hm => ?_
    obtain ⟨p, hp⟩ := items_mem hl hm
    obtain ⟨x, hx⟩ := printed_name hp.2.1
    exact ⟨_, .member hx⟩
  cases v with
  | void => exact absurd h (by simp [Body])
  | int th' d =>
    obtain ⟨-, -, w, -, hn, -⟩ := h
    obtain ⟨x, hx⟩ := printed_name hn
    exact ⟨_, .type rfl (.int hx)⟩
  | typedef th' d => obtain ⟨x, hx⟩ := printed_name h.2.2.1; exact ⟨_, .type rfl (.typedef hx)⟩
  | enum th' d =>
    obtain ⟨-, -, hn, -, -, -, hl⟩ := h
    obtain ⟨x, hx⟩ := printed_name hn
    obtain ⟨y, hy⟩ := printed_items (q := PrintsValue32) (l := d.namedValueList) fun m hm => by
      obtain ⟨p, off, v, -, hs, -⟩ := items_mem hl hm
      obtain ⟨z, hz⟩ := printed_string hs
      obtain ⟨n, v⟩ := m
      cases v with
      | signed v => exact ⟨_, .signed hz⟩
      | unsigned v => exact ⟨_, .unsigned hz⟩
    exact ⟨_, .type rfl (.enum hx hy)⟩
  | ptr th' d => exact ⟨_, .type rfl .ptr⟩
  | const th' d => exact ⟨_, .type rfl .const⟩
  | volatile th' d => exact ⟨_, .type rfl .volatile⟩
  | array th' d => exact ⟨_, .type rfl .array⟩
  | funcProto th' d =>
    obtain ⟨y, hy⟩ := printed_items (q := PrintsParameter) (l := d.parameterList) fun m hm => by
      obtain ⟨p, -, hn, -⟩ := items_mem h.2.2.2.2 hm
      obtain ⟨x, hx⟩ := printed_name hn
      exact ⟨_, .parameter hx⟩
    exact ⟨_, .type rfl (.funcProto hy)⟩
  | struct th' d =>
    obtain ⟨x, hx⟩ := printed_name h.2.2.1
    obtain ⟨y, hy⟩ := members h.2.2.2.2.2
    exact ⟨_, .type rfl (.struct hx hy)⟩
  | union th' d =>
    obtain ⟨x, hx⟩ := printed_name h.2.2.1
    obtain ⟨y, hy⟩ := members h.2.2.2.2.2
    exact ⟨_, .type rfl (.union hx hy)⟩
  | fwd th' d => obtain ⟨x, hx⟩ := printed_name h.2.2.1; exact ⟨_, .type rfl (.fwd hx)⟩
  | var th' d =>
    obtain ⟨x, hx⟩ := printed_name h.2.2.1
    obtain ⟨n, t, l, k⟩ := d
    cases k with
    | static => exact ⟨_, .type rfl (.varStatic hx)⟩
    | global => exact ⟨_, .type rfl (.varGlobal hx)⟩
  | enum64 th' d =>
    obtain ⟨-, -, hn, -, -, -, hl⟩ := h
    obtain ⟨x, hx⟩ := printed_name hn
    obtain ⟨y, hy⟩ := printed_items (q := PrintsValue64) (l := d.namedValueList) fun m hm => by
      obtain ⟨p, off, v, -, hs, -⟩ := items_mem hl hm
      obtain ⟨z, hz⟩ := printed_string hs
      obtain ⟨n, v⟩ := m
      cases v with
      | signed v => exact ⟨_, .signed hz⟩
      | unsigned v => exact ⟨_, .unsigned hz⟩
    exact ⟨_, .type rfl (.enum64 hx hy)⟩
  | func th' d => obtain ⟨x, hx⟩ := printed_name h.2.2.1; exact ⟨_, .type rfl (.func hx)⟩
  | float th' d => obtain ⟨x, hx⟩ := printed_name h.2.2.1; exact ⟨_, .type rfl (.float hx)⟩
  | restrict th' d => exact ⟨_, .type rfl .restrict⟩
  | dataSec th' d =>
    obtain ⟨x, hx⟩ := printed_name h.2.2.1
    obtain ⟨y, hy⟩ := printed_items (q := PrintsVariable) (l := d.variableList) fun m _ => ⟨_, .variable⟩
    exact ⟨_, .type rfl (.dataSec hx hy)⟩
  | typeTag th' d => obtain ⟨x, hx⟩ := printed_name h.2.2.1; exact ⟨_, .type rfl (.typeTag hx)⟩
  | declTag th' d => obtain ⟨x, hx⟩ := printed_name h.2.2.1; exact ⟨_, .type rfl (.declTag hx)⟩

theorem printed_records {dl : Dialect} {e : Endianness} {fh : FileHeader} {pos next : Nat} {vs : List TypeVariant}
    (h : Records dl f e fh pos vs next) : ∀ v ∈ vs, ∃ x, Prints v x := by
  induction h with
  | nil => simp
  | cons h _ ih =>
    intro v hv
    rcases List.mem_cons.1 hv with rfl | hv
    · obtain ⟨th, -, hb, -⟩ := h
      exact printed_body hb
    · exact ih v hv

theorem printed_types {l : List (UInt32 × TypeVariant)} (h : ∀ p ∈ l, ∃ x, Prints p.2 x) : ∃ x, PrintsTypes l x := by
  have : ∃ xs, List.Forall₂ (fun p x => ∃ y, Prints p.2 y ∧ x = s!"{p.1}: {y}") l xs := by
    induction l with
    | nil => exact ⟨[], .nil⟩
    | cons a l ih =>
      obtain ⟨y, hy⟩ := h a (by simp)
      obtain ⟨xs, hxs⟩ := ih fun b hb => h b (by simp [hb])
      exact ⟨_, .cons ⟨y, hy, rfl⟩ hxs⟩
  obtain ⟨xs, h⟩ := this
  exact ⟨_, .types h⟩

theorem numbered_mem {vs : List TypeVariant} {p : UInt32 × TypeVariant} (h : p ∈ numbered vs) : p.2 ∈ vs := by
  obtain ⟨q, hq, rfl⟩ := List.mem_map.1 h
  exact List.fst_mem_of_mem_zipIdx hq

theorem decodes_printed {vs : List TypeVariant} (h : Decodes .crate f vs) : ∃ x, PrintsTypes (numbered vs) x := by
  obtain ⟨e, fh, next, -, -, hr, -⟩ := h
  exact printed_types fun p hp => printed_records hr _ (numbered_mem hp)

theorem numbered_inj {vs ws : List TypeVariant} (h : numbered vs = numbered ws) : vs = ws := by
  have key : ∀ vs, (numbered vs).map Prod.snd = vs := by
    intro vs
    rw [numbered, List.map_map, show (Prod.snd ∘ fun p : TypeVariant × Nat => (UInt32.ofNat (p.2 + 1), p.1)) = Prod.fst from rfl,
      List.zipIdx_map_fst]
  rw [← key vs, h, key]

/-- **C87.** Types, and the map of all types, are printed as specified. -/
theorem debug_text (v : TypeVariant) (l : List (UInt32 × TypeVariant)) (x : String) :
    (Prints v x → v.debug = str x) ∧ (PrintsTypes l x → debugMap l = str x) := ⟨text_type, text_types⟩

/-- **C87.** The specification covers whatever is parsed: there is exactly one text for each type, and for all types. -/
theorem debug_specified (hS : Serves cfg R f) (ht : FitsTarget cfg f) {ti : TypeInformation}
    (h : TypeInformation.new cfg R = .ok ti) :
    (∀ t v, ti.fromId t = some v → ∃ x, ∀ y, Prints v y ↔ y = x) ∧ ∃ x, ∀ y, PrintsTypes ti.get y ↔ y = x := by
  obtain ⟨vs, hd, hh⟩ := new_sound hS ht h
  constructor
  · intro t v hv
    have : ∃ x, Prints v x := by
      rw [hh.fromId, typeAt] at hv
      have hm := List.mem_of_getElem? hv
      rcases List.mem_cons.1 hm with rfl | hm
      · exact ⟨_, .void⟩
      · obtain ⟨e, fh, next, -, -, hr, -⟩ := hd
        exact printed_records hr _ hm
    obtain ⟨x, hx⟩ := this
    refine ⟨x, fun y => ⟨fun hy => ?_, fun hy => hy ▸ hx⟩⟩
    exact str_inj ((text_type hy).symm.trans (text_type hx))
  · rw [hh.get]
    obtain ⟨x, hx⟩ := decodes_printed hd
    refine ⟨x, fun y => ⟨fun hy => ?_, fun hy => hy ▸ hx⟩⟩
    exact str_inj ((text_types hy).symm.trans (text_types hx))

/-! ### What the text tells -/

/-- **C87.** Different types, different offsets and different maps of types are printed differently. -/
theorem debug_unique :
    (∀ v w : TypeVariant, v.debug = w.debug → v = w) ∧ (∀ o p : Offset, o.debug = p.debug → o = p) ∧
      ∀ l m : List (UInt32 × TypeVariant), debugMap l = debugMap m → l = m :=
  ⟨fun _ _ h => variant_printer.inj h, fun _ _ h => offset_printer.inj h, fun _ _ h => map_printer.inj h⟩

/-- **C87.** If the types of two files are printed alike, then all that the crate knows about the files is the same. -/
theorem dump_determines (hS : Serves cfg R f) (ht : FitsTarget cfg f) (hS' : Serves cfg' R' f') (ht' : FitsTarget cfg' f')
    {ti ti' : TypeInformation} (h : TypeInformation.new cfg R = .ok ti) (h' : TypeInformation.new cfg' R' = .ok ti')
    (he : debugMap ti.get = debugMap ti'.get) : ti = ti' := by
  obtain ⟨vs, hd, hh⟩ := new_sound hS ht h
  obtain ⟨vs', hd', hh'⟩ := new_sound hS' ht' h'
  have := map_printer.inj he
  rw [hh.get, hh'.get] at this
  obtain rfl := numbered_inj this
  have := new_determined hS ht hS' ht' hd hd'
  rw [h, h'] at this
  cases this
  rfl

/-- **C82, C87.** The text of an error of a query belongs to one reason only; in particular the message that a type has no
size tells which type. -/
theorem message_determines (r r' : Reason) (h : r.message TypeVariant.debug = r'.message TypeVariant.debug) : r = r' :=
  message_inj (fun _ _ h => variant_printer.inj h) h

/-- **C82, C87.** The text of the error of `size_of` for a type that has no size. -/
theorem size_of_unsized_text (cfg : Cfg) (ti : TypeInformation) (t : UInt32) (v : TypeVariant) (x : String) (n : Nat)
    (h : sizeOfT cfg ti n t = .err (.notSized v)) (hx : Prints v x) :
    Reason.message TypeVariant.debug (.notSized v) = str s!"Type {x} has no size" ∧
      ∃ a, Chain ti sizeRef t a ∧ ti.fromId a = some v ∧ Unsized v := by
  constructor
  · rw [Reason.message, text_type hx]
    simp only [str_append, str_string]
  · cases (size_of_reason cfg ti t _).1 ⟨n, h⟩ with
    | unsized h1 h2 h3 => exact ⟨_, h1, h2, h3⟩

/-! ### The example programs -/

variable {os os' : Os} {file : OsFile} {prog path name typePath : String}

/-- **C87.** What the example programs write: the usage; a line with the path; and a line with the answer. `q` is how the
path of the file is printed. -/
theorem examples_text (usage : Str) (q : String → String) (path name typePath : String) (t : UInt32) (n : Nat) (o : Offset) :
    Run.stdout usage (fun p => str (q p)) ⟨[.usage], .returned⟩ = usage ++ str "\n" ∧
    (∀ e, Run.stdout usage (fun p => str (q p)) ⟨[.opening path], e⟩ = str s!"Opening BTF file: {q path}\n") ∧
    (∀ l x, PrintsTypes l x → Run.stdout usage (fun p => str (q p)) ⟨[.opening path, .types l], .returned⟩ =
      str s!"Opening BTF file: {q path}\n{x}\n") ∧
    Run.stdout usage (fun p => str (q p)) ⟨[.opening path, .size name t n], .returned⟩ =
      str s!"Opening BTF file: {q path}\nType {name} has ID {t} and requires {n} bytes in total\n" ∧
    Run.stdout usage (fun p => str (q p)) ⟨[.opening path, .offset name typePath t o], .returned⟩ =
      str s!"Opening BTF file: {q path}\n{name} => {typePath}: ({t}, {printedOffset o})\n" := by
  refine ⟨?_, fun e => ?_, fun l x h => ?_, ?_, ?_⟩
  · simp only [Run.stdout, Line.text, List.flatMap_cons, List.flatMap_nil, List.append_nil]; texts
  · simp only [Run.stdout, Line.text]; texts
  · simp only [Run.stdout, Line.text]; texts; rw [text_types h]
  · simp only [Run.stdout, Line.text]; texts
  · simp only [Run.stdout, Line.text, text_offset]; texts

/-- **C87.** `dump-btf` on a readable file: the whole output. -/
theorem dump_btf_output (hopen : os.openFile path = some file) (hf : Contains file f) (ht : FitsTarget cfg f) (q : String → String)
    (out : Str) :
    (dumpBtf cfg os [prog, path]).stdout dumpUsage (fun p => str (q p)) = out ↔
      (∃ vs x, Decodes .crate f vs ∧ PrintsTypes (numbered vs) x ∧ out = str s!"Opening BTF file: {q path}\n{x}\n") ∨
      ((∀ vs, ¬ Decodes .crate f vs) ∧ out = str s!"Opening BTF file: {q path}\n") := by
  rcases (dump_btf_iff (prog := prog) hopen hf ht (dumpBtf cfg os [prog, path])).1 rfl with ⟨vs, hd, hr⟩ | ⟨hn, hr⟩
  · obtain ⟨x, hx⟩ := decodes_printed hd
    rw [hr, (examples_text dumpUsage q path "" "" 0 0 (.byteOffset 0)).2.2.1 _ _ hx]
    constructor
    · rintro rfl; exact .inl ⟨vs, x, hd, hx, rfl⟩
    · rintro (⟨vs', x', hd', hx', rfl⟩ | ⟨hn, -⟩)
      · obtain rfl := content_unique hd hd'
        rw [str_inj ((text_types hx).symm.trans (text_types hx'))]
      · exact absurd hd (hn vs)
  · rw [hr, (examples_text dumpUsage q path "" "" 0 0 (.byteOffset 0)).2.1]
    constructor
    · rintro rfl; exact .inr ⟨hn, rfl⟩
    · rintro (⟨vs', x', hd', hx', rfl⟩ | ⟨-, rfl⟩)
      · exact absurd hd' (hn vs')
      · rfl

/-- **C87.** The output of the example programs determines the answer, whatever was printed for the path: on two file
systems, the same arguments and the same output mean the same answer. -/
theorem examples_output_determines (usage : Str) (q : String → Str) (e e' : Ending) :
    (∀ l l', Run.stdout usage q ⟨[.opening path, .types l], e⟩ = Run.stdout usage q ⟨[.opening path, .types l'], e'⟩ → l = l') ∧
    (∀ t n t' n', Run.stdout usage q ⟨[.opening path, .size name t n], e⟩ =
      Run.stdout usage q ⟨[.opening path, .size name t' n'], e'⟩ → t = t' ∧ n = n') ∧
    (∀ t o t' o', Run.stdout usage q ⟨[.opening path, .offset name typePath t o], e⟩ =
      Run.stdout usage q ⟨[.opening path, .offset name typePath t' o'], e'⟩ → t = t' ∧ o = o') := by
  refine ⟨fun l l' h => ?_, fun t n t' n' h => ?_, fun t o t' o' h => ?_⟩
  · simp only [Run.stdout, List.flatMap_cons, List.flatMap_nil, List.append_assoc, Line.text, List.append_nil] at h
    have h := List.append_cancel_left (List.append_cancel_left (List.append_cancel_left h))
    exact (map_printer l l' [10] [10] rfl rfl h).1
  · simp only [Run.stdout, List.flatMap_cons, List.flatMap_nil, List.append_assoc, Line.text, List.append_nil] at h
    have h := List.append_cancel_left (List.append_cancel_left (List.append_cancel_left (List.append_cancel_left
      (List.append_cancel_left (List.append_cancel_left h)))))
    have stop : ∀ r, Stop (str " and requires " ++ r) := fun _ => by
      show stopByte _ = true
      decide +kernel
    have stop' : ∀ r, Stop (str " bytes in total" ++ r) := fun _ => by
      show stopByte _ = true
      decide +kernel
    obtain ⟨h1, h2⟩ := u32_printer t t' _ _ (stop _) (stop _) h
    obtain ⟨h3, -⟩ := debugNat_printer n n' _ _ (stop' _) (stop' _) (List.append_cancel_left h2)
    exact ⟨h1, h3⟩
  · simp only [Run.stdout, List.flatMap_cons, List.flatMap_nil, List.append_assoc, Line.text, List.append_nil] at h
    have h := List.append_cancel_left (List.append_cancel_left (List.append_cancel_left (List.append_cancel_left
      (List.append_cancel_left (List.append_cancel_left (List.append_cancel_left h))))))
    obtain ⟨h1, -⟩ := debugTuple_split (xs := [debugNat t.toNat, o.debug]) (ys := [debugNat t'.toNat, o'.debug])
      (by simpa using ⟨u32_printer.apart t t', offset_printer.apart o o'⟩) (by simpa using ⟨nat_solid _, offset_solid _⟩)
      (by simpa using ⟨nat_solid _, offset_solid _⟩) h
    simp only [List.cons.injEq, and_true] at h1
    exact ⟨u32_printer.inj h1.1, offset_printer.inj h1.2⟩

/-- **C87.** The output of `get-type-size` and `get-type-offset` shows the answer exactly if there is one: the text with the
line of the answer is written by the run with this answer only. -/
theorem answer_output (os : Os) (q : String → String) (r : Run) (t : UInt32) (n : Nat) (o : Offset) :
    (Ends (fun k => getTypeSize cfg os k [prog, path, name]) r →
      (r.stdout sizeUsage (fun p => str (q p)) =
          str s!"Opening BTF file: {q path}\nType {name} has ID {t} and requires {n} bytes in total\n" ↔
        r = ⟨[.opening path, .size name t n], .returned⟩)) ∧
    (Ends (fun k => getTypeOffset cfg os k [prog, path, name, typePath]) r →
      (r.stdout offsetUsage (fun p => str (q p)) =
          str s!"Opening BTF file: {q path}\n{name} => {typePath}: ({t}, {printedOffset o})\n" ↔
        r = ⟨[.opening path, .offset name typePath t o], .returned⟩)) := by
  have short : ∀ (u : Str) (l : Line) (e e' : Ending), Run.stdout u (fun p => str (q p)) ⟨[.opening path], e⟩ ≠
      Run.stdout u (fun p => str (q p)) ⟨[.opening path, l], e'⟩ := by
    intro u l e e' h
    have := congrArg List.length h
    simp [Run.stdout] at this
  have h := examples_no_silent_failure (cfg := cfg) (prog := prog) (path := path) (name := name) os typePath r
  constructor
  · intro he
    rw [← (examples_text sizeUsage q path name "" t n o).2.2.2.1]
    refine ⟨fun hs => ?_, fun hr => by rw [hr]⟩
    rcases h.2.1 he with ⟨t', n', rfl⟩ | rfl
    · obtain ⟨rfl, rfl⟩ := (examples_output_determines (typePath := "") _ _ .returned .returned).2.1 _ _ _ _ hs
      rfl
    · exact absurd hs (short _ _ _ _)
  · intro he
    rw [← (examples_text offsetUsage q path name typePath t n o).2.2.2.2]
    refine ⟨fun hs => ?_, fun hr => by rw [hr]⟩
    rcases h.2.2 he with ⟨t', o', rfl⟩ | rfl
    · obtain ⟨rfl, rfl⟩ := (examples_output_determines _ _ .returned .returned).2.2 _ _ _ _ hs
      rfl
    · exact absurd hs (short _ _ _ _)

/-! ### Examples -/

open Samples

/-- A name with a quote, a newline, a control character and a letter with an accent. -/
example : debugString (latin1 [97, 34, 10, 1, 0xE9, 0xAD]) = str "\"a\\\"\\n\\u{1}é\\u{ad}\"" := by decide +kernel

/-- The type without a size of `size_of_unsized_text`. -/
example : sizeOfT dbg zoo 9 12 = .err (.notSized (.fwd ⟨.Fwd, 56, 0, false, 0⟩ ⟨some (latin1 [102, 119, 100]), 0⟩)) ∧
    Reason.message TypeVariant.debug (.notSized (.fwd ⟨.Fwd, 56, 0, false, 0⟩ ⟨some (latin1 [102, 119, 100]), 0⟩)) =
      str "Type Fwd(Fwd { type_header: Header { kind: Fwd, name_offset: 56, vlen: 0, kind_flag: false, size_or_type: 0 }, data: Data { name: Some(\"fwd\"), tid: 0 } }) has no size" := by
  constructor <;> decide +kernel

/-- The same text by the specification. -/
example : Prints (.fwd ⟨.Fwd, 56, 0, false, 0⟩ ⟨some (latin1 [102, 119, 100]), 0⟩)
    "Fwd(Fwd { type_header: Header { kind: Fwd, name_offset: 56, vlen: 0, kind_flag: false, size_or_type: 0 }, data: Data { name: Some(\"fwd\"), tid: 0 } })" :=
  cast (congrArg (Prints _) (by decide +kernel)) (Prints.type (v := .fwd ⟨.Fwd, 56, 0, false, 0⟩ ⟨some (latin1 [102, 119, 100]), 0⟩) rfl (.fwd (.some .bytes)))

/-- `debug_specified`, `dump_determines`: a file with an integer, a structure with a bit field, and a signed enum. -/
def printed : List UInt8 := leFile [
    1, 0x1000000, 4, 0x1000020,
    0, 0x84000001, 4, 5, 1, 0x5000003,
    0, 0x86000001, 4, 7, 0xffffffff] [0, 105, 110, 116, 0, 34, 0, 65, 0]

example : (match TypeInformation.new dbg (buffer printed) with | .ok ti => debugMap ti.get | _ => []) =
    str "{1: Int(Int { type_header: Header { kind: Int, " ++
      str "name_offset: 1, vlen: 0, kind_flag: false, " ++
      str "size_or_type: 4 }, data: Data { name: Some(\"int\"), " ++
      str "size: 4, signed: true, char: false, boolean: false, " ++
      str "offset: 0, bits: 32 } }), 2: Struct(Struct { " ++
      str "type_header: Header { kind: Struct, name_offset: 0, " ++
      str "vlen: 1, kind_flag: true, size_or_type: 4 }, data: Data { " ++
      str "name: None, size: 4, member_list: [Member { name_offset: 5, " ++
      str "name: Some(\"\\\"\"), tid: 1, offset: BitOffsetAndSize(3, " ++
      str "5) }] } }), 3: Enum(Enum { type_header: Header { " ++
      str "kind: Enum, name_offset: 0, vlen: 1, kind_flag: true, " ++
      str "size_or_type: 4 }, data: Data { name: None, size: 4, " ++
      str "named_value_list: [NamedValue32 { name: \"A\", " ++
      str "value: Signed(-1) }], signed: true } })}" := by
  decide +kernel

/-- `answer_output`: a run of `get-type-offset`. -/
example : (getTypeOffset dbg (oneFile (leFile zooTypes zooStrings)) 9 ["get-type-offset", "btf", "outer", "arr[2]"]).stdout
    offsetUsage (fun _ => str "\"btf\"") = str "Opening BTF file: \"btf\"\nouter => arr[2]: (1, ByteOffset(32))\n" := by
  decide +kernel

end Btf.Props
