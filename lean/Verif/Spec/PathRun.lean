import Verif.Model.Path

/-!
# Running the path iterator

`for component in TypePathComponentIter::new(path) { .. }` as a relation.
-/

namespace Btf.Spec

/-- Calling `next` until it stops produces the components `cs`; the run ends with `None`
(`clean = true`) or with an error (`clean = false`). -/
inductive Yields (cfg : Cfg) : PathIter → List PathComponent → (clean : Bool) → Prop where
  | stop {it} : (it.next cfg).1 = .ok none → Yields cfg it [] true
  | fail {it e} : (it.next cfg).1 = .err e → Yields cfg it [] false
  | tok {it it' c cs b} : it.next cfg = (.ok (some c), it') → Yields cfg it' cs b →
      Yields cfg it (c :: cs) b

end Btf.Spec
