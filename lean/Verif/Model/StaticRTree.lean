import Verif.Model.Rect

/-!
# Model of `StaticRTree`

From `ink/geometry/internal/static_rtree.{h,cc}`. The tree is the array of branch nodes of the code, indices
included. Simplifications:

* `std::ceil(static_cast<double>(n) / b)` and `std::ceil(std::sqrt(static_cast<double>(n)))` are modelled by the
  exact integers: for 32-bit operands the rounding error of a double is too small to reach the next integer.
* `absl::c_sort` is a parameter, of which the theorems assume only that it returns a permutation of its argument;
  `std::sort` promises no order among equal elements.
* `bounds_func` is a function of the element (it returns the same rectangle each time it is called).
* A branch node which has not been assigned is `none`; reading it, reading or writing out of range, a failed `CHECK`
  and a failed `DCHECK` all are the outcome `none`.
-/

set_option autoImplicit false

namespace Verif.RTree

open F32

/-- static_rtree.h:67-78 `BranchNode` -/
structure Node where
  bounds : RectF
  leafParent : Bool
  children : List ℕ
  deriving DecidableEq

/-- static_rtree.h:155 `branch_nodes_` -/
abbrev Nodes := List (Option Node)

/-- `std::ceil(static_cast<double>(n) / b)` -/
def ceilDiv (n b : ℕ) : ℕ := (n + b - 1) / b

/-- `std::ceil(std::sqrt(static_cast<double>(n)))` -/
def ceilSqrt (n : ℕ) : ℕ := if n.sqrt * n.sqrt = n then n.sqrt else n.sqrt + 1

/-- static_rtree.cc:40-44 the loop of `ComputeNumberOfRTreeBranchNodesAtDepth`, deepest level first. The first
argument bounds the number of iterations; running out of it would be the outcome `none`. -/
def levelCounts (B : ℕ) : ℕ → ℕ → Option (List ℕ)
  | 0, n => if n > 1 then none else some []
  | fuel + 1, n =>
    if n > 1 then (levelCounts B fuel (ceilDiv n B)).map (fun l => ceilDiv n B :: l) else some []

/-- static_rtree.cc:27-47 `ComputeNumberOfRTreeBranchNodesAtDepth` -/
def countsAtDepth (n B : ℕ) : Option (List ℕ) :=
  if n ≤ B then some [1] else (levelCounts B n n).map List.reverse

/-- static_rtree.cc:49-58 `ComputeRTreeBranchDepthOffsets`: the sums of the counts of the lesser depths. -/
def offsetsFrom : ℕ → List ℕ → List ℕ
  | _, [] => []
  | acc, c :: cs => acc :: offsetsFrom (acc + c) cs

/-- The arguments of `BulkLoadOneLevelOfNodes`, static_rtree.h:214-220. `leaf` tells which of the two
`assign_..._children_to_parent` lambdas (static_rtree.h:350-367) is given; `bnd` is `get_child_bounds`. -/
structure Level where
  firstParent : ℕ
  nParents : ℕ
  firstChild : ℕ
  nChildren : ℕ
  leaf : Bool
  bnd : Nodes → ℕ → Option RectF
  sortX : (ℕ → Option RectF) → List ℕ → List ℕ
  sortY : (ℕ → Option RectF) → List ℕ → List ℕ
  B : ℕ

namespace Level

/-- static_rtree.h:248-249 `n_tiles` -/
def nTiles (L : Level) : ℕ := ceilDiv L.nChildren L.B

/-- static_rtree.h:250-251 `base_slice_size` -/
def baseSlice (L : Level) : ℕ := ceilSqrt L.nTiles * L.B

/-- static_rtree.h:252-253 `n_slices` -/
def nSlices (L : Level) : ℕ := ceilDiv L.nChildren L.baseSlice

/-- static_rtree.h:350-367 `assign_leaf_children_to_parent`, `assign_branch_children_to_parent`. The `SmallArray`
has a capacity of `kBranchingFactor`. -/
def assign (L : Level) (a : Nodes) (i : ℕ) (b : RectF) (cs : List ℕ) : Option Nodes :=
  if i < a.length ∧ cs.length ≤ L.B then some (a.set i (some ⟨b, L.leaf, cs⟩)) else none

/-- static_rtree.h:284-292 the envelope of the bounds of the children of a tile, and `*envelope.AsRect()`. -/
def tileBounds (L : Level) (a : Nodes) (tile : List ℕ) : Option RectF :=
  match tile.mapM (L.bnd a) with
  | none => none
  | some rs => Envelope.addAll none (rs.map EnvObj.rect)

/-- static_rtree.h:274-295 the body of the loop over the tiles of a slice. `subspan` clamps the length and requires
that the start is not past the end. -/
def loadTile (L : Level) (slice : List ℕ) (st : Nodes × ℕ) (tileIdx : ℕ) : Option (Nodes × ℕ) :=
  let first := tileIdx * L.B
  let n := if tileIdx = L.nTiles - 1 then slice.length - first else L.B
  if first ≤ slice.length then
    let tile := (slice.drop first).take n
    match L.tileBounds st.1 tile with
    | none => none
    | some b =>
      if st.2 < L.firstParent + L.nParents then
        (L.assign st.1 st.2 b tile).map (fun a => (a, st.2 + 1))
      else none
  else none

/-- static_rtree.h:259-296 the body of the loop over the slices. Sorting one slice in place leaves the other ones as
they are. -/
def loadSlice (L : Level) (sorted : List ℕ) (st : Nodes × ℕ) (sliceIdx : ℕ) : Option (Nodes × ℕ) :=
  let first := sliceIdx * L.baseSlice
  let n := if sliceIdx = L.nSlices - 1 then L.nChildren - first else L.baseSlice
  if first < sorted.length ∧ first + n ≤ sorted.length then
    let slice := L.sortY (L.bnd st.1) ((sorted.drop first).take n)
    (List.range (ceilDiv n L.B)).foldlM (L.loadTile slice) st
  else none

/-- static_rtree.h:213-297 `BulkLoadOneLevelOfNodes` -/
def load (L : Level) (a : Nodes) : Option Nodes :=
  if 0 < L.nChildren ∧ L.nParents = ceilDiv L.nChildren L.B then
    let sorted := L.sortX (L.bnd a) (List.range' L.firstChild L.nChildren)
    ((List.range L.nSlices).foldlM (L.loadSlice sorted) (a, L.firstParent)).map Prod.fst
  else none

end Level

/-- The two sorts, for the two levels of the algorithm. -/
structure Sorts where
  x : (ℕ → Option RectF) → List ℕ → List ℕ
  y : (ℕ → Option RectF) → List ℕ → List ℕ

/-- static_rtree.h:346-348 `get_branch_bounds` -/
def branchBounds (a : Nodes) (i : ℕ) : Option RectF := (a[i]?).join.map Node.bounds

/-- static_rtree.h:374-379 the loop over the lesser depths: `prev` is the level below, and the list has the offset and
count of each level, from the deepest to the root. -/
def loadUp (S : Sorts) (B : ℕ) : Nodes → ℕ × ℕ → List (ℕ × ℕ) → Option Nodes
  | a, _, [] => some a
  | a, prev, l :: ls =>
    match (Level.mk l.1 l.2 prev.1 prev.2 false branchBounds S.x S.y B).load a with
    | none => none
    | some a => loadUp S B a l ls

/-- static_rtree.h:151-161 the members of a `StaticRTree` -/
structure Tree (T : Type) where
  nodes : Nodes
  elements : List T
  bf : T → RectF

/-- static_rtree.h:340-345 `get_leaf_bounds` -/
def leafBounds {T : Type} (elements : List T) (bf : T → RectF) (i : ℕ) : Option RectF := (elements[i]?).map bf

/-- static_rtree.h:321-380 `InitializeTree`. The number of elements is passed as a `uint32_t`. -/
def initTree {T : Type} (S : Sorts) (B : ℕ) (elements : List T) (bf : T → RectF) : Option (Tree T) :=
  if elements.isEmpty then some ⟨[], elements, bf⟩
  else
    let n := elements.length % 4294967296
    match countsAtDepth n B with
    | none => none
    | some counts =>
      match ((offsetsFrom 0 counts).zip counts).reverse with
      | [] => none
      | leaf :: rest =>
        let a : Nodes := List.replicate (leaf.1 + leaf.2) none
        match (Level.mk leaf.1 leaf.2 0 n true (fun _ => leafBounds elements bf) S.x S.y B).load a with
        | none => none
        | some a => (loadUp S B a leaf rest).map (fun a => ⟨a, elements, bf⟩)

/-- static_rtree.h:298-309 the constructor from a span. -/
def create {T : Type} (S : Sorts) (B : ℕ) (elements : List T) (bf : T → RectF) : Option (Tree T) :=
  if elements.length ≤ 4294967296 then initTree S B elements bf else none

section Visit

variable {T σ : Type} (t : Tree T) (q : RectF) (visitor : σ → T → σ × Bool)

/-- static_rtree.h:394-400 the loop over leaf children. A visitor is a function of its own state and of the element;
the flag tells whether to go on. -/
def visitLeaves : List ℕ → σ → Option (σ × Bool)
  | [], s => some (s, true)
  | i :: is, s =>
    match t.elements[i]? with
    | none => none
    | some e =>
      if (t.bf e).intersects q then
        let r := visitor s e
        if r.2 then visitLeaves is r.1 else some (r.1, false)
      else visitLeaves is s

/-- static_rtree.h:401-407 the loop over branch children; `rec` is the recursive call. -/
def visitBranches (rec : ℕ → σ → Option (σ × Bool)) : List ℕ → σ → Option (σ × Bool)
  | [], s => some (s, true)
  | i :: is, s =>
    match (t.nodes[i]?).join with
    | none => none
    | some nd =>
      if nd.bounds.intersects q then
        match rec i s with
        | none => none
        | some r => if r.2 then visitBranches rec is r.1 else some (r.1, false)
      else visitBranches rec is s

/-- static_rtree.h:389-410 `VisitIntersectedElementsInSubTree`. The first argument bounds the depth of the recursion;
running out of it is the outcome `none`. -/
def visitSubTree : ℕ → ℕ → σ → Option (σ × Bool)
  | 0, _, _ => none
  | fuel + 1, i, s =>
    match (t.nodes[i]?).join with
    | none => none
    | some nd =>
      if nd.leafParent then visitLeaves t q visitor nd.children s
      else visitBranches t q (visitSubTree fuel) nd.children s

/-- static_rtree.h:382-387 `VisitIntersectedElements`: the state of the visitor at the end. -/
def visit (s : σ) : Option σ :=
  match (t.nodes[0]?).join with
  | none => none
  | some root =>
    if root.bounds.intersects q then (visitSubTree t q visitor t.nodes.length 0 s).map Prod.fst else some s

end Visit

end Verif.RTree
