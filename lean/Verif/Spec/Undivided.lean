import Verif.Spec.BMEncode
/-!
# Names that are encoded at once, whatever `concat` says
-/

namespace Verif.Spec
open BM

/-- A name that is not divided: it has at most one word, of which nothing is dropped; or it is a generic name with a prefix, and
the rest, and the prefix with the rest, are such names. -/
inductive Undivided (U : Unicode) (nt : NameType) : Str → Prop
  | word {s : Str} {ws : List Str} : (nt = .generic → ∀ p r, ¬ NamePrefix (cleaned U s) p r) → Words U (cleaned U s) ws →
      ws.length ≤ 1 → keptWords nt ws = ws → Undivided U nt s
  | prefixed {s p r : Str} : nt = .generic → NamePrefix (cleaned U s) p r → Undivided U nt r → Undivided U nt (p ++ r) →
      Undivided U nt s

end Verif.Spec
