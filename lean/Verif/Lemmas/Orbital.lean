import Verif.Lemmas.Integrator

namespace Verif.Integrator

variable {V : Type} [AddCommGroup V] [Module ℚ V]

/-- Two main stages with the same weights whose sources agree. -/
def Same (P P' : Phys V) (a b : Stage) : Prop :=
  a.main = true ∧ b.main = true ∧ a.orbital = false ∧ b.orbital = false ∧ a.beta = b.beta ∧ a.delta = b.delta ∧
  a.g1 = b.g1 ∧ a.g2 = b.g2 ∧ a.g3 = b.g3 ∧ P.src a.sbeta = P'.src b.sbeta

theorem integrate_congr (g : Integ) (n n' : Nat) (a b : Stage) (kL kS : V) (r : Regs V)
    (h1 : a.beta = b.beta) (h2 : a.delta = b.delta) (h3 : a.g1 = b.g1) (h4 : a.g2 = b.g2) (h5 : a.g3 = b.g3)
    (hn : n = n' ∨ g ≠ .ssprk54) : integrate g n a kL kS r = integrate g n' b kL kS r := by
  unfold integrate
  have : (n = 4 ∧ g = .ssprk54) ↔ (n' = 4 ∧ g = .ssprk54) := by
    rcases hn with rfl | h
    · rfl
    · simp [h]
  rw [h1, h2, h3, h4, h5]
  simp only [this]

theorem run_same {g : Integ} {P P' : Phys V} (hf : P.flux = P'.flux) {l l' : List Stage} (h : List.Forall₂ (Same P P') l l') :
    ∀ (f f' : Bool) (n n' : Nat) (r : Regs V), (n = n' ∨ g ≠ .ssprk54) →
      (g = .vl2 → n - (if f then 1 else 0) = n' - (if f' then 1 else 0)) → (if f then 1 else 0) ≤ n →
      (if f' then 1 else 0) ≤ n' →
      runStages g P f n l r = runStages g P' f' n' l' r := by
  induction h with
  | nil => intros; rfl
  | @cons a b l l' hab _ ih =>
    intro f f' n n' r hn hlow hle hle'
    obtain ⟨ha, hb, hao, hbo, h1, h2, h3, h4, h5, hs⟩ := hab
    have hl : (decide (g = .vl2) && n - (if f then 1 else 0) == 1) =
        (decide (g = .vl2) && n' - (if f' then 1 else 0) == 1) := by
      by_cases hg : g = .vl2
      · rw [hlow hg]
      · simp [hg]
    simp only [runStages, stageStep, ha, hb, hao, hbo, if_true, hl, hf, hs]
    rw [integrate_congr g n n' a b _ _ r h1 h2 h3 h4 h5 hn]
    congr 1
    funext r'
    refine ih f f' (n+1) (n'+1) r' ?_ ?_ ?_ ?_
    · exact hn.imp (fun h => by rw [h]) id
    · intro hg
      have := hlow hg
      cases f <;> cases f' <;> simp at this hle hle' ⊢ <;> omega
    · omega
    · omega

theorem run_append {g : Integ} {P : Phys V} {f : Bool} (l l2 : List Stage) :
    ∀ (n : Nat) (r : Regs V), runStages g P f n (l ++ l2) r =
      (runStages g P f n l r).bind (runStages g P f (n + l.length) l2) := by
  induction l with
  | nil => intro n r; rfl
  | cons a l ih =>
    intro n r
    simp only [List.cons_append, runStages, Option.bind_assoc, List.length_cons]
    congr 1
    funext r'
    rw [ih]
    congr 2
    omega

/-- Orbital advection applied to `u`. -/
def orbU (P : Phys V) (x : ℚ) (r : Regs V) : Regs V := ⟨P.orb x r.u, r.u1, r.u2⟩

theorem run_orbitalOnly {g : Integ} {P : Phys V} {f : Bool} (n : Nat) (s e : ℚ) (l : List Stage) (r : Regs V) :
    runStages g P f n (orbitalOnly s e :: l) r = runStages g P f (n + 1) l (orbU P (e - s) r) := by
  simp [runStages, stageStep, orbitalOnly, orbU]

theorem run_last {g : Integ} {P : Phys V} {f : Bool} (n : Nat) (l : List Stage) (st : Stage) (hm : st.main = true)
    (ho : st.orbital = true) (r : Regs V) :
    runStages g P f n (l ++ [st]) r =
      (runStages g P f n (l ++ [{ st with orbital := false }]) r).map (orbU P (st.ebeta - st.sbeta)) := by
  obtain ⟨m, o, s, e, b, d, x, y, z⟩ := st
  simp only at hm ho
  subst hm ho
  rw [run_append, run_append]
  cases runStages g P f n l r with
  | none => rfl
  | some r' =>
    simp only [Option.bind_some, runStages, stageStep, if_true]
    have : ∀ kL kS, integrate g (n + l.length) ⟨true, true, s, e, b, d, x, y, z⟩ kL kS r' =
        integrate g (n + l.length) ⟨true, false, s, e, b, d, x, y, z⟩ kL kS r' := fun kL kS => rfl
    rw [this]
    generalize integrate g (n + l.length) ⟨true, false, s, e, b, d, x, y, z⟩ _ _ r' = X
    cases X <;> rfl

/-- First stage's orbital flag. -/
def firstOrb : List Stage → Bool
  | [] => false
  | st :: _ => st.orbital

theorem step_eq {g : Integ} {orb : Nat} {sm : Bool} {sts : List Stage} (h : stages g orb sm = some sts) (P : Phys V) (u : V) :
    step g orb sm P u =
      (runStages g P (firstOrb sts) 1 sts ⟨u, 0, if g = .ssprk54 then some u else none⟩).map (·.u) := by
  unfold step
  rw [h]
  cases sts <;> rfl

/-- Main stages at given times without orbital advection. -/
def plainStages (g : Integ) : List Stage := mainStages g (plainTimes g) (List.replicate (betas g).length false)

theorem same_plain (g : Integ) (P : Phys V) (τ : ℚ) (x : ℚ) :
    List.Forall₂ (Same P (P.frozen τ)) (mainStages g (List.replicate (betas g).length (τ, x))
      (List.replicate (betas g).length false)) (plainStages g) := by
  cases g <;> simp [plainStages, mainStages, betas, gammas, plainTimes, simpleTimes, timesLoop, Same, Phys.frozen]

theorem same_last (g : Integ) (P : Phys V) (τ x y : ℚ) :
    ∃ l st, mainStages g (List.replicate ((betas g).length - 1) (τ, x) ++ [(τ, y)])
        (List.replicate ((betas g).length - 1) false ++ [true]) = l ++ [st] ∧ st.main = true ∧ st.orbital = true ∧
      st.sbeta = τ ∧ st.ebeta = y ∧
      List.Forall₂ (Same P (P.frozen τ)) (l ++ [{ st with orbital := false }]) (plainStages g) := by
  have hne : mainStages g (List.replicate ((betas g).length - 1) (τ, x) ++ [(τ, y)])
        (List.replicate ((betas g).length - 1) false ++ [true]) ≠ [] := by
    cases g <;> simp [mainStages, betas, gammas]
  refine ⟨_, _, (List.dropLast_append_getLast hne).symm, ?_⟩
  cases g <;> simp [plainStages, mainStages, betas, gammas, plainTimes, simpleTimes, timesLoop, Same, Phys.frozen]

end Verif.Integrator
