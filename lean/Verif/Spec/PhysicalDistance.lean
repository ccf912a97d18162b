import Verif.Model.PhysicalDistance

/-!
# Specification of distances and arrays
-/

set_option autoImplicit false

namespace Verif

/-- The float nearest to one millionth -/
def PhysicalDistance.Spec.millionth : F32 := F32.ofRat (1 / 1000000)

/-- What a change does to a list with room for `N` elements: only what the documentation says. -/
def SmallArray.Spec.apply {T : Type} (N : ℕ) (l : List T) : SmallArray.Op T → Option (List T)
  | .resize n v => if n ≤ N then some (l.take n ++ List.replicate (n - l.length) v) else none
  | .set i v => if i < l.length then some (l.set i v) else none

def SmallArray.Spec.applyAll {T : Type} (N : ℕ) : List T → List (SmallArray.Op T) → Option (List T)
  | l, [] => some l
  | l, o :: os => (SmallArray.Spec.apply N l o).bind fun l => SmallArray.Spec.applyAll N l os

end Verif
