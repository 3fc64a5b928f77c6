import Verif.Model.TimeStep

/-!
# Time step: vocabulary
-/
namespace Verif.TimeStep
variable {K : Type} [Field K] [LinearOrder K]

/-- All ranks have the same time and the same time step. -/
def Agree (t dt : K) (ranks : List (Msh K × List (Blk K))) : Prop := ∀ r ∈ ranks, r.1.time = t ∧ r.1.dt = dt

/-- Every rank owns a block. -/
def HasBlocks (ranks : List (Msh K × List (Blk K))) : Prop := ∀ r ∈ ranks, r.2 ≠ []

/-- `x` respects the limits of all blocks of all ranks (also the super-time-step ratio), at time `t`, and does not
pass the final time. -/
structure Within (c : Cfg K) (t : K) (blocks : List (List (Blk K))) (x : K) : Prop where
  block : ∀ bs ∈ blocks, ∀ b ∈ bs, x ≤ b.dt
  final : t < c.tlim → x ≤ c.tlim - t
  sts : c.sts = true → 0 < c.ratio → ∀ bs ∈ blocks, ∀ b ∈ bs, x ≤ c.ratio * b.par

/-- What the integration may return: a nonempty list of blocks for each of the `n` ranks, with positive limits. -/
structure GoodBlocks (n : Nat) (blocks : List (List (Blk K))) : Prop where
  length : blocks.length = n
  some : ∀ bs ∈ blocks, bs ≠ []
  pos : ∀ bs ∈ blocks, ∀ b ∈ bs, 0 < b.dt ∧ 0 < b.par

/-- A run: passes of the main loop as long as its condition holds (on the first rank). -/
def run (c : Cfg K) : List (List (List (Blk K)) × Bool) → Sim K → Option (Sim K)
  | [], s => some s
  | q :: l, s =>
    match s.ranks with
    | [] => none
    | r :: _ => if r.1.time < c.tlim ∧ (c.nlim < 0 ∨ s.ncycle < c.nlim) then (cycle c q.1 q.2 s).bind (run c l) else some s

/-- A state of a run at time `t` with step `dt`. -/
structure At (c : Cfg K) (n : Nat) (t dt : K) (s : Sim K) : Prop where
  ranks : s.ranks.length = n
  agree : Agree t dt s.ranks

end Verif.TimeStep
