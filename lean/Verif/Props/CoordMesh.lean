import Verif.Lemmas.CoordMesh
import Verif.Props.Coord

/-!
# Conservation on meshes in Cartesian, cylindrical and spherical coordinates (C62)

`MeshDirs`, `moment` are in `Verif/Spec/Coord.lean`; `OnBoundary`, `Delivered`, `blockSum` in
`Verif/Spec/FluxMsg.lean`.
-/
namespace Verif.Coord
open Verif.Grid Verif.Tree Verif.Ghost Verif.FluxMsg Verif.MeshGen

section
variable {c : Sys} {m : Mesh} (hm : m.Valid) (hnp : NoPolar m) (hns : NoShear m) {s : St} (h : Reach m s)
variable {ml : Bool} (hml : LevelsOk m ml (s.tree.number m 0).1) {d : Dims} (hd : SizesOk m ml d) (hok : d.Ok)
  {nbrs : Int → List Entry} (hnb : ∀ L p g, (L, p, g) ∈ meshBlocks m (s.tree.number m 0).1 → searchNeighbors m ml (s.tree.number m 0).1 L p = some (nbrs g))
  {D1 D2 D3 : Dir} (hD : MeshDirs c m d D1 D2 D3) (X0 X : Int → XF)
  (hX : ∀ L p g, (L, p, g) ∈ meshBlocks m (s.tree.number m 0).1 → X g = blockXF m d D1 D2 D3 (X0 g) L p)
local notation "tr" => Prod.fst (Tree.number m s.tree 0)

include hm hnp hns h hml hd hok hnb hD hX in
/-- Mass, energy and every other variable that is not a component of the momentum: on every mesh that
can be reached, in all three coordinate systems, with the face positions computed by each block, an
update with flux correction and geometric terms changes the total only by what passes through the
non-periodic boundaries of the mesh. -/
theorem mesh_conserved_coordinates (nv : Nat) (S : Int → Src) (F : Int → Flx ℝ) (w : ℝ) (u : Int → A4 ℝ) {n : Int}
    (hn : 0 ≤ n ∧ n < nv) (hm3 : n < 1 ∨ 3 < n)
    (hsame : ∀ L p g, (L, p, g) ∈ meshBlocks m tr → ∀ e ∈ nbrs g, isFace e.ni = true → e.level = L →
      ∀ y x, ylo d (faceId e.ni) ≤ y → y ≤ yhi d (faceId e.ni) → xlo d (faceId e.ni) ≤ x → x ≤ xhi d (faceId e.ni) →
        faceFlux d (F g) (faceId e.ni) n y x = faceFlux d (F e.gid) (opp (faceId e.ni)) n y x)
    (recv : Int → Nat → Nat → ℝ) (hdel : Delivered m tr d 0 (nv - 1) (fun g => geom (X g) c) F nbrs recv)
    (order : Int → List Entry) (hord : ∀ L p g, (L, p, g) ∈ meshBlocks m tr → (order g).Perm (recvs L (nbrs g))) :
    blockSum m tr (fun _ _ g => content d (geom (X g) c) (stage (X g) c d nv (S g) w
        (applyCorrections d 0 (nv - 1) (recv g) (order g) (F g)) (u g)) n) =
      blockSum m tr (fun _ _ g => content d (geom (X g) c) (u g) n) -
        w * blockSum m tr (fun L p g => ∑ f ∈ Finset.range 6,
          if OnBoundary m L p f then outflow d (geom (X g) c) (F g) n f else 0) := by
  have hr : Reach m ⟨tr, 0⟩ := .number 0 h
  have hi := hr.inv hm hnp
  have hdom : ∀ L p g, (L, p, g) ∈ meshBlocks m tr → m.rootLevel ≤ L ∧ Dom m L p := by
    intro L p g hb
    obtain ⟨hp, hl⟩ := (block_iff hm hi.wf).1 hb
    exact ⟨hi.wf.leaf L p g hp hl, hp⟩
  have e : ∀ (Y : XF) (S : Src) F u, content d (geom Y c) (stage Y c d nv S w F u) n =
      content d (geom Y c) (addFluxDivergence d nv (geom Y c) F w u) n := by
    intro Y S F u
    unfold content stage
    refine Finset.sum_congr rfl fun k _ => Finset.sum_congr rfl fun j _ => Finset.sum_congr rfl fun i _ => ?_
    rw [sources_momentum_only n k j i hm3]
  simp only [e]
  have hA : (globalGeom c (gpos true m.rootLevel D1) (clamp c (gpos m.f2 m.rootLevel D2)) (gpos m.f3 m.rootLevel D3)).Nested m d := by
    refine geom_nested (gpos_lines hD.x1) (clamp_lines (gpos_lines hD.x2)) (gpos_lines hD.x3) ?_ hm.dim hD.per1 hD.per2
    rintro rfl
    exact clamp_polar fun L i => gpos_le hD.x2 i
  refine mesh_conserved_grid hm hnp hns h hml hd hok hnb hA nv F w u hn (fun g => geom (X g) c) ?_ ?_ hsame ?_ recv hdel order hord
  · intro L p g hb f ha y x y0 y1 x0 x1
    obtain ⟨hL, hp⟩ := hdom L p g hb
    have og := block_onGrid hD hd hL hp (X0 g)
    simp only [hX L p g hb]
    exact (geom_local og ha y0 y1 x0 x1 hok).1
  · intro L p g hb k j i k0 k1 j0 j1 i0 i1
    obtain ⟨hL, hp⟩ := hdom L p g hb
    simp only [hX L p g hb]
    exact (measures_pos (block_good hD hd hL hp (X0 g) k j i k0 k1 j0 j1 i0 i1)).1.ne'
  · intro L p g hb f ha hnb' y x y0 y1 x0 x1
    obtain ⟨hL, hp⟩ := hdom L p g hb
    simp only [hX L p g hb]
    exact (areas_pos hD hd hok hL hp (X0 g) ha hnb' y0 y1 x0 x1).ne'

include hm hnp hns h hml hd hok hnb hD hX in
/-- Angular momentum: on a mesh with blocks of one level, in cylindrical and spherical coordinates,
the update with the geometric terms changes the total angular momentum about the axis only by the
fluxes of angular momentum through the non-periodic boundaries of the mesh. -/
theorem mesh_angular_momentum (hone : ∀ L p g, (L, p, g) ∈ meshBlocks m tr → L = m.rootLevel)
    (hsym : c = .spherical → m.f2 = false → D2.ms.xmin + D2.ms.xmax = Real.pi) (nv : Nat)
    (S : Int → Src) (F : Int → Flx ℝ) (w : ℝ) (u : Int → A4 ℝ) (hn : azimuth c < nv)
    (hsame : ∀ L p g, (L, p, g) ∈ meshBlocks m tr → ∀ e ∈ nbrs g, isFace e.ni = true →
      ∀ y x, ylo d (faceId e.ni) ≤ y → y ≤ yhi d (faceId e.ni) → xlo d (faceId e.ni) ≤ x → x ≤ xhi d (faceId e.ni) →
        faceFlux d (F g) (faceId e.ni) (azimuth c) y x = faceFlux d (F e.gid) (opp (faceId e.ni)) (azimuth c) y x) :
    blockSum m tr (fun _ _ g => content d (moment c (X g)) (stage (X g) c d nv (S g) w (F g) (u g)) (azimuth c)) =
      blockSum m tr (fun _ _ g => content d (moment c (X g)) (u g) (azimuth c)) -
        w * blockSum m tr (fun L p g => ∑ f ∈ Finset.range 6,
          if OnBoundary m L p f then outflow d (moment c (X g)) (F g) (azimuth c) f else 0) := by
  have hr : Reach m ⟨tr, 0⟩ := .number 0 h
  have hi := hr.inv hm hnp
  have hdom : ∀ L p g, (L, p, g) ∈ meshBlocks m tr → m.rootLevel ≤ L ∧ Dom m L p := by
    intro L p g hb
    obtain ⟨hp, hl⟩ := (block_iff hm hi.wf).1 hb
    exact ⟨hi.wf.leaf L p g hp hl, hp⟩
  have hlev : ∀ L p g, (L, p, g) ∈ meshBlocks m tr → ∀ e ∈ nbrs g, e.level = L := by
    intro L p g hb e he
    obtain ⟨q, hq, _⟩ := neighbor_slots_pair hm hnp hns hr hml hb (hnb L p g hb) he
    rw [hone _ _ _ hb, hone _ _ _ hq]
  have ho : ∀ f, Active d f → Active d (opp f) ∧ ylo d (opp f) = ylo d f ∧ yhi d (opp f) = yhi d f ∧
      xlo d (opp f) = xlo d f ∧ xhi d (opp f) = xhi d f := by
    intro f ha
    have h6 : f < 6 := by unfold Active at ha; omega
    interval_cases f <;> simpa [opp, ylo, yhi, xlo, xhi, Active] using ha
  have hn0 : 0 ≤ azimuth c := by cases c <;> simp [azimuth]
  let G : Int → Geom ℝ := fun g => { moment c (X g) with vol := fun _ => 1 }
  have hG : ∀ L p g, (L, p, g) ∈ meshBlocks m tr → ∀ f, Active d f → ∀ y x, ylo d f ≤ y → y ≤ yhi d f →
      xlo d f ≤ x → x ≤ xhi d f → faceArea d (G g) f y x = faceArea d (localGeom d (globalMoment c
        (gpos true m.rootLevel D1) (clamp c (gpos m.f2 m.rootLevel D2)) (gpos m.f3 m.rootLevel D3)) L p) f y x := by
    intro L p g hb f ha y x y0 y1 x0 x1
    obtain ⟨hL, hp⟩ := hdom L p g hb
    rw [← (geom_local (block_onGrid hD hd hL hp (X0 g)) ha y0 y1 x0 x1 hok).2, ← hX L p g hb]
    rfl
  obtain ⟨recv, hdel⟩ := delivered_exists hm hnp hns h hml hd hok hnb 0 (nv - 1) G F
  have key := mesh_conserved hm hnp hns h hml hd hok hnb nv G F 1 (fun _ _ => 0) (n := azimuth c) ⟨hn0, hn⟩
    (fun _ _ _ _ _ _ _ _ _ _ _ _ _ => one_ne_zero) ?_ ?_ recv hdel (fun _ => []) ?_
  · have e1 : ∀ g F w u, content d (G g) (addFluxDivergence d nv (G g) F w u) (azimuth c) =
        content d (G g) u (azimuth c) - w * ∑ f ∈ Finset.range 6, outflow d (moment c (X g)) F (azimuth c) f := fun g F w u =>
      block_balance hok nv (G g) F w u ⟨hn0, hn⟩ (fun _ _ _ _ _ _ _ _ _ => one_ne_zero)
    have e0 : ∀ g, content d (G g) (fun _ => (0:ℝ)) (azimuth c) = 0 := fun g => by simp [content]
    have e2 : ∀ g f, outflow d (G g) (F g) (azimuth c) f = outflow d (moment c (X g)) (F g) (azimuth c) f := fun _ _ => rfl
    simp only [e1, e0, e2, applyCorrections, List.foldl_nil] at key
    have key2 : blockSum m tr (fun _ _ g => ∑ f ∈ Finset.range 6, outflow d (moment c (X g)) (F g) (azimuth c) f) =
        blockSum m tr (fun L p g => ∑ f ∈ Finset.range 6,
          if OnBoundary m L p f then outflow d (moment c (X g)) (F g) (azimuth c) f else 0) := by
      have e3 : ∀ Y : Nat → Pos → Int → ℝ, blockSum m tr (fun L p g => 0 - 1 * Y L p g) = - blockSum m tr Y := by
        intro Y
        unfold blockSum
        generalize meshBlocks m tr = l
        induction l with
        | nil => simp
        | cons a l ih => simp only [List.map_cons, List.sum_cons]; rw [ih]; ring
      have e4 : blockSum m tr (fun _ _ _ => (0:ℝ)) = 0 := by simp [blockSum]
      rw [e3, e4] at key
      linarith
    rw [← key2]
    have e5 : ∀ (Y Z : Nat → Pos → Int → ℝ), blockSum m tr Y - w * blockSum m tr Z = blockSum m tr (fun L p g => Y L p g - w * Z L p g) := by
      intro Y Z
      unfold blockSum
      generalize meshBlocks m tr = l
      induction l with
      | nil => simp
      | cons a l ih => simp only [List.map_cons, List.sum_cons]; rw [← ih]; ring
    rw [e5]
    unfold blockSum
    refine congrArg List.sum (List.map_congr_left fun b hb => ?_)
    obtain ⟨L, p, g⟩ := b
    obtain ⟨hL, hp⟩ := hdom L p g hb
    simp only [hX L p g hb]
    refine angular_momentum_block (block_good hD hd hL hp (X0 g)) hok ?_ hn
    intro hc hnx
    have hf : m.f2 = false := by
      rw [← Bool.not_eq_true]; exact fun h => hnx ((dims_js hd).1.2 h)
    rw [← hsym hc hf]
    unfold blockXF
    simp [hnx, oneCell, Function.update]
  · intro L p g hb e he hf hl y x y0 y1 x0 x1
    rw [hsame L p g hb e he hf y x y0 y1 x0 x1]
    congr 1
    obtain ⟨hp, hl'⟩ := (block_iff hm hi.wf).1 hb
    have hL := hi.wf.leaf L p g hp hl'
    have hli := ((search_listed hm hnp hns hr hml hb (hnb _ _ _ hb)).1 e).1 he
    obtain ⟨a1, a2⟩ := listed_face hd hok hli hf
    have h6 : faceId e.ni < 6 := by unfold Active at a2; omega
    obtain ⟨i1, i2, i3⟩ := (atFace_iff h6 _).1 a1
    obtain ⟨q, e', k1, k2, k3, k4, k5, k6, k7, k8, k9, k10, _, kg⟩ :=
      hli.pair_geo hm hnp hi (hml.at hm hi.wf) hp hl'
    have hq := (block_iff hm hi.wf).2 ⟨k1, k2⟩
    obtain ⟨o1, o2, o3, o4, o5⟩ := ho _ a2
    rw [hG _ _ _ hb _ a2 y x y0 y1 x0 x1, hG _ _ _ hq _ o1 y x (by omega) (by omega) (by omega) (by omega)]
    rcases kg with ⟨j, j1⟩ | ⟨j, _⟩ | ⟨j, _⟩
    · rw [i1, i2, i3] at j1
      rw [j]
      exact areas_same hd hok hL hp (moment_wraps hD.per1 hD.per2) a2 j1 y x
    · omega
    · omega
  · intro L p g hb e he hf hl
    have := hlev L p g hb e he
    omega
  · intro L p g hb
    have : recvs L (nbrs g) = [] := by
      rw [List.eq_nil_iff_forall_not_mem]
      intro e he
      obtain ⟨j1, _, j2⟩ := ((faces_first hm hnp hns hr hml hb (hnb _ _ _ hb)).2.1 e).1 he
      have := hlev L p g hb e j1
      omega
    rw [this]
end

/-! ## The hypotheses are met -/

/-- Radius and polar angle, 3 by 2 root blocks of 8 by 4 cells. -/
def exM : Mesh := ⟨3, 2, 1, 2, true, false, .outflow, .outflow, .reflect, .reflect, .periodic, .periodic⟩
theorem exM_valid : exM.Valid := by constructor <;> decide
theorem exM_noPolar : NoPolar exM := by unfold NoPolar; decide
theorem exM_noShear : NoShear exM := by unfold NoShear; decide
theorem exM_sizes : SizesOk exM true exD :=
  ⟨by decide, by decide, by decide, by decide, by decide, by decide, by decide, by decide, by decide, by decide⟩

/-- Radii 0 to 12 at constant ratio, polar angles from `0` to `π`, one cell in azimuth. -/
noncomputable def exD1 : Dir := .standard ⟨0, 12, 1.1, 24⟩ 3 8 2 (.other 0) (.other 0) false
noncomputable def exD2 : Dir := .standard ⟨0, Real.pi, 1, 8⟩ 2 4 2 .reflect .reflect true
noncomputable def exD3 : Dir := .standard ⟨0, 2 * Real.pi, 1, 1⟩ 1 1 2 .block .block false

theorem exDirs (c : Sys) : MeshDirs c exM exD exD1 exD2 exD3 := by
  have hp := Real.pi_pos
  have o1 : exD1.Ok := by
    unfold exD1 Dir.standard
    rw [if_pos (by norm_num)]
    constructor <;> norm_num
  have o2 : exD2.Ok := by
    unfold exD2 Dir.standard
    rw [if_neg (by norm_num)]
    constructor <;> first | exact hp | norm_num
  have o3 : exD3.Ok := by
    unfold exD3 Dir.standard
    rw [if_neg (by norm_num)]
    constructor <;> first | (simp only; linarith) | norm_num
  have s1 : exD1.ms = ⟨0, 12, 1.1, 24⟩ := by unfold exD1 Dir.standard; split_ifs <;> rfl
  have s2 : exD2.ms = ⟨0, Real.pi, 1, 8⟩ := by unfold exD2 Dir.standard; split_ifs <;> rfl
  refine ⟨⟨o1, fun _ => standard_genOk o1, ?_, ?_, ?_⟩, ⟨o2, fun _ => standard_genOk o2, ?_, ?_, ?_⟩,
    ⟨o3, fun _ => standard_genOk o3, ?_, ?_, ?_⟩, fun _ => ?_, fun _ => ?_, fun _ => ?_, fun _ => by decide, fun _ _ => by decide⟩
  case refine_10 => rw [s1]
  case refine_11 => rw [s2]
  case refine_12 => rw [s2]
  all_goals
    simp only [exD1, exD2, exD3]
    unfold Dir.standard
    split_ifs <;> rfl

def exMState : Option St := addMeshBlock exM 3 ⟨1, 1, 0⟩ ⟨rootGrid exM, 0⟩
theorem exMReach : ∃ s, exMState = some s ∧ Reach exM s := by
  have h : (exMState.map fun s => (meshBlocks exM s.tree).map fun b => (b.1, b.2.1)) =
      some [(3, ⟨0, 0, 0⟩), (3, ⟨1, 0, 0⟩), (3, ⟨0, 1, 0⟩), (3, ⟨1, 1, 0⟩), (2, ⟨1, 0, 0⟩), (2, ⟨0, 1, 0⟩), (2, ⟨1, 1, 0⟩),
        (2, ⟨2, 0, 0⟩), (2, ⟨2, 1, 0⟩)] := by decide +kernel
  rcases h' : exMState with _ | s
  · rw [h'] at h; simp at h
  · exact ⟨s, rfl, .add (.start 0) (by constructor <;> unfold DomDim <;> decide) h'⟩

/-- The hypotheses on fluxes and messages, for any reachable state of the mesh: fluxes depend on the
level only. -/
theorem ex_hyps (c : Sys) {s : St} (hr : Reach exM s) :
    let t := Prod.fst (Tree.number exM s.tree 0)
    ∃ (nbrs : Int → List Entry) (X : Int → XF) (F : Int → Flx ℝ) (recv : Int → Nat → Nat → ℝ) (order : Int → List Entry),
    (∀ L p g, (L, p, g) ∈ meshBlocks exM t → searchNeighbors exM true t L p = some (nbrs g) ∧
      X g = blockXF exM exD exD1 exD2 exD3 exX L p ∧ F g = ⟨fun _ => L, fun _ => 2 * L, fun _ => 0⟩ ∧
      (order g).Perm (recvs L (nbrs g)) ∧ ∀ e ∈ nbrs g, isFace e.ni = true →
        e.level = L → ∀ n y x, faceFlux exD (F g) (faceId e.ni) n y x =
          faceFlux exD (F e.gid) (opp (faceId e.ni)) n y x) ∧
    Delivered exM t exD 0 ((5 : Nat) - 1) (fun g => geom (X g) c) F nbrs recv := by
  intro t
  have hml : LevelsOk exM true t := .inl rfl
  have hr' : Reach exM ⟨t, 0⟩ := .number 0 hr
  have hv : exM.Valid := exM_valid
  obtain ⟨nbrs, hn⟩ := by_gid hv hr [] fun L p => (searchNeighbors exM true t L p).getD []
  obtain ⟨X, hX⟩ := by_gid hv hr exX fun L p => blockXF exM exD exD1 exD2 exD3 exX L p
  obtain ⟨F, hF⟩ := by_gid hv hr (⟨fun _ => 0, fun _ => 0, fun _ => 0⟩ : Flx ℝ) fun L _ => ⟨fun _ => L, fun _ => 2 * L, fun _ => 0⟩
  obtain ⟨order, hO⟩ := by_gid hv hr [] fun L p => recvs L ((searchNeighbors exM true t L p).getD [])
  have hnb : ∀ L p g, (L, p, g) ∈ meshBlocks exM t → searchNeighbors exM true t L p = some (nbrs g) := by
    intro L p g hb
    obtain ⟨es, he⟩ := neighbor_list_total hv exM_noPolar exM_noShear hr' hml (by decide) hb
    rw [hn L p g hb, he]
    rfl
  obtain ⟨recv, hrecv⟩ := delivered_exists hv exM_noPolar exM_noShear hr hml exM_sizes exD_ok hnb 0 ((5 : Nat) - 1)
    (fun g => geom (X g) c) F
  refine ⟨nbrs, X, F, recv, order, ?_, hrecv⟩
  intro L p g hb
  refine ⟨hnb L p g hb, hX L p g hb, hF L p g hb, ?_, ?_⟩
  · rw [hO L p g hb, hn L p g hb]
  · intro e he hf hl n y x
    obtain ⟨q, hq, _⟩ := neighbor_slots_pair hv exM_noPolar exM_noShear hr' hml hb (hnb L p g hb) he
    rw [hF L p g hb, hF _ q _ hq, hl]
    unfold faceFlux opp
    split_ifs <;> first | rfl | omega

/-- All hypotheses of `mesh_conserved_coordinates` hold on a refined spherical mesh from pole to pole
that includes the origin: the theorem gives the total density after the update. -/
example : ∃ s, exMState = some s ∧
    let t := Prod.fst (Tree.number exM s.tree 0)
    ∃ (X : Int → XF) (F : Int → Flx ℝ) (recv : Int → Nat → Nat → ℝ) (order : Int → List Entry),
      ∀ (S : Int → Src) (w : ℝ) (u : Int → A4 ℝ),
    blockSum exM t (fun _ _ g => content exD (geom (X g) .spherical) (stage (X g) .spherical exD 5 (S g) w
        (applyCorrections exD 0 ((5 : Nat) - 1) (recv g) (order g) (F g)) (u g)) 0) =
      blockSum exM t (fun _ _ g => content exD (geom (X g) .spherical) (u g) 0) -
        w * blockSum exM t (fun L p g => ∑ f ∈ Finset.range 6,
          if OnBoundary exM L p f then outflow exD (geom (X g) .spherical) (F g) 0 f else 0) := by
  obtain ⟨s, hs, hr⟩ := exMReach
  refine ⟨s, hs, ?_⟩
  intro t
  obtain ⟨nbrs, X, F, recv, order, h1, h2⟩ := ex_hyps .spherical hr
  refine ⟨X, F, recv, order, fun S w u => ?_⟩
  exact mesh_conserved_coordinates exM_valid exM_noPolar exM_noShear hr (.inl rfl) exM_sizes exD_ok
    (fun L p g hb => (h1 L p g hb).1) (exDirs _) (fun _ => exX) X (fun L p g hb => (h1 L p g hb).2.1) 5 S F w u
    (by decide) (by decide) (fun L p g hb e he hf hl y x _ _ _ _ => (h1 L p g hb).2.2.2.2 e he hf hl 0 y x) recv h2 order
    (fun L p g hb => (h1 L p g hb).2.2.2.1)

/-- All hypotheses of `mesh_angular_momentum` hold on the root grid. -/
example : let t := Prod.fst (Tree.number exM (rootGrid exM) 0)
    ∃ (X : Int → XF) (F : Int → Flx ℝ), ∀ (S : Int → Src) (w : ℝ) (u : Int → A4 ℝ),
    blockSum exM t (fun _ _ g => content exD (moment .spherical (X g)) (stage (X g) .spherical exD 5 (S g) w (F g) (u g)) 3) =
      blockSum exM t (fun _ _ g => content exD (moment .spherical (X g)) (u g) 3) -
        w * blockSum exM t (fun L p g => ∑ f ∈ Finset.range 6,
          if OnBoundary exM L p f then outflow exD (moment .spherical (X g)) (F g) 3 f else 0) := by
  intro t
  have hr : Reach exM ⟨rootGrid exM, 0⟩ := .start 0
  obtain ⟨nbrs, X, F, recv, order, h1, h2⟩ := ex_hyps .spherical hr
  have hlev : ∀ L p g, (L, p, g) ∈ meshBlocks exM t → L = 2 := by
    have : ∀ b ∈ meshBlocks exM t, b.1 = 2 := by decide +kernel
    exact fun L p g hb => this _ hb
  have hr' : Reach exM ⟨t, 0⟩ := .number 0 hr
  refine ⟨X, F, fun S w u => ?_⟩
  exact mesh_angular_momentum exM_valid exM_noPolar exM_noShear hr (.inl rfl) exM_sizes exD_ok
    (fun L p g hb => (h1 L p g hb).1) (exDirs _) (fun _ => exX) X (fun L p g hb => (h1 L p g hb).2.1) hlev (by decide) 5 S F w u
    (by decide) (fun L p g hb e he hf y x _ _ _ _ => (h1 L p g hb).2.2.2.2 e he hf (by
      obtain ⟨q, hq, _⟩ := neighbor_slots_pair exM_valid exM_noPolar exM_noShear hr' (.inl rfl) hb ((h1 L p g hb).1) he
      rw [hlev _ _ _ hb, hlev _ _ _ hq]) 3 y x)

end Verif.Coord
