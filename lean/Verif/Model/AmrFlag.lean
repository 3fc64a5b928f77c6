/-!
# Refinement flags (src/mesh/mesh_refinement.cpp:1393-1451) and block costs (src/mesh/meshblock.cpp:734-739)
-/
namespace Verif.AmrFlag

/-- Inputs of one call of `CheckRefinementCondition`: the value returned by the user's function
(`none` if none is enrolled) and the levels in `nblevel` for the loop ranges of the mesh dimension. -/
structure Check where
  crit : Option Int
  nblevel : List Int

/-- Data of the block and mesh that do not change while the block exists. -/
structure Blk where
  level : Int
  rootLevel : Int
  maxLevel : Int
  /-- `deref_threshold_` -/
  threshold : Int

/-- `refine_flag_` and `deref_count_`. -/
structure Flag where
  refine : Int
  derefCount : Int

/-- `MeshRefinement::CheckRefinementCondition` (mesh_refinement.cpp:1393-1451). -/
def check (b : Blk) (s : Flag) (c : Check) : Flag :=
  let ret := match c.crit with
    | none => 0
    | some r => r
  let aret := max (-1) ret
  let cnt := if aret ≥ 0 then 0 else s.derefCount
  if aret > 0 then
    if b.level = b.maxLevel then ⟨0, cnt⟩ else ⟨1, cnt⟩
  else if aret < 0 then
    if b.level = b.rootLevel then ⟨0, 0⟩
    else
      let cnt := cnt + 1
      let ec := c.nblevel.countP (fun l => decide (l > b.level))
      if ec > 0 then ⟨0, cnt⟩
      else if cnt ≥ b.threshold then ⟨-1, cnt⟩ else ⟨0, cnt⟩
  else ⟨0, cnt⟩

/-- Flags after a history of checks, oldest first; the constructor sets both to zero
(mesh_refinement.cpp:36). A block that moves to another process takes `deref_count_` along
(amr_loadbalance.cpp:690-693). -/
def run (b : Blk) (h : List Check) : Flag := h.foldl (check b) ⟨0, 0⟩

/-- `MeshBlock::SetCostForLoadBalancing` (meshblock.cpp:734-739): the new `cost_`. `tiny` is
`TINY_NUMBER`; costs are values of an ordered type. -/
def setCost {α : Type} [Min α] (tiny : α) (manual : Bool) (old cost : α) : α :=
  if manual then min cost tiny else old

end Verif.AmrFlag
