import Verif.Model.Tree

/-!
# `Mesh::UpdateMeshBlockTree` (src/mesh/amr_loadbalance.cpp:177-313)
-/
namespace Verif.Tree

/-- A block of one process: level, position, `refine_flag_`. -/
abbrev FBlock := Nat × Pos × Int

/-- `lref` / `lderef` after the gather (amr_loadbalance.cpp:184-246): every process writes the
locations of its blocks with the given flag behind those of the lower ranks (`rdisp`, `ddisp` are
prefix sums of the counts), and `MPI_Allgatherv` delivers all segments to all processes. -/
def gathered (flag : Int) (parts : List (List FBlock)) : List (Nat × Pos) :=
  (parts.map (fun l => (l.filter (fun b => b.2.2 = flag)).map (fun b => (b.1, b.2.1)))).flatten

/-- The innermost loops of the sibling scan (amr_loadbalance.cpp:258-273): `rr`, where the list is
`lderef[n..]` and `n` runs over the offsets `(i,j,k)` in the order of the loops. -/
def matchCount (L : Nat) (p : Pos) : List (Fin 8) → List (Nat × Pos) → Nat
  | n :: ns, x :: xs =>
    (if x = (L, ⟨p.x1 + n.val % 2, p.x2 + n.val / 2 % 2, p.x3 + n.val / 4 % 2⟩) then 1 else 0)
      + matchCount L p ns xs
  | _, _ => 0

/-- `clderef` (amr_loadbalance.cpp:249-283). -/
def groups (m : Mesh) : List (Nat × Pos) → List (Nat × Pos)
  | [] => []
  | b :: rest =>
    if b.2.x1 % 2 = 0 ∧ b.2.x2 % 2 = 0 ∧ b.2.x3 % 2 = 0 ∧
        matchCount b.1 b.2 m.kids (b :: rest) = m.nleaf then
      (b.1 - 1, b.2.half) :: groups m rest
    else groups m rest

/-- `UpdateMeshBlockTree`: new tree, `nnew`, `ndel`. `sort` is `std::sort(clderef,
&(clderef[ctnd-1]), LogicalLocation::Greater)` (amr_loadbalance.cpp:285-287), which orders all but
the last element by falling level in an unspecified way among equals. `none`: null dereference. -/
def updateTree (m : Mesh) (sort : List (Nat × Pos) → List (Nat × Pos)) (parts : List (List FBlock))
    (t : Tree) : Option (Tree × Int × Int) :=
  let lref := gathered 1 parts
  let lderef := gathered (-1) parts
  if lref.length = 0 ∧ lderef.length < m.nleaf then some (t, 0, 0)
  else
    let cl := if lderef.length ≥ m.nleaf then sort (groups m lderef) else []
    match lref.foldlM (fun s b => refine m b.1 b.2 s) (⟨t, 0⟩ : St) with
    | none => none
    | some s1 =>
      match cl.foldlM (fun s b => derefine m b.1 b.2 s) (⟨s1.tree, 0⟩ : St) with
      | none => none
      | some s2 => some (s2.tree, s1.cnt, s2.cnt)

end Verif.Tree
