import Verif.Spec.Path

/-!
# Joining two paths
-/

namespace Btf.Spec

/-- `p` followed by `q`, with a `.` in between where the syntax needs one. -/
def join (p q : Str) : Str :=
  if p = [] then q
  else
    match q with
    | [] => p
    | c :: _ => if c = 91 then p ++ q else p ++ [46] ++ q

end Btf.Spec
