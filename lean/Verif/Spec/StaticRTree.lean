import Verif.Model.StaticRTree
import Mathlib.Data.List.Perm.Basic

/-!
# Specification for C15
-/

set_option autoImplicit false

namespace Verif.RTree

/-- Show the elements to a visitor one after the other, until it asks to stop: the last state of the visitor. -/
def showUntilStop {T σ : Type} (visitor : σ → T → σ × Bool) : List T → σ → σ
  | [], s => s
  | e :: es, s => if (visitor s e).2 then showUntilStop visitor es (visitor s e).1 else (visitor s e).1

/-- What a query should do: there is an order of the elements whose bounds meet the region, in which every visitor sees
them, until it asks to stop. -/
def QueryOk {T : Type} (elements : List T) (bf : T → RectF) (q : RectF) (t : Tree T) : Prop :=
  ∃ order : List T, order.Perm (elements.filter (fun e => (bf e).intersects q)) ∧
    ∀ (σ : Type) (visitor : σ → T → σ × Bool) (s : σ), visit t q visitor s = some (showUntilStop visitor order s)

end Verif.RTree
