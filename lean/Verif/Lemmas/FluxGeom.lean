import Verif.Lemmas.FluxMesh

/-! Flux correction on a mesh: areas of blocks that belong to one geometry. -/
namespace Verif.FluxMsg
open Verif.Grid Verif.Tree Verif.Ghost
variable {K : Type} [Field K]

theorem step_zero {per : Prop} {n x y : Nat} (hx : x < n) (h : Step per n x 0 y) : y = x := by
  obtain ⟨h1, _, _, h | ⟨_, h | h⟩⟩ := h <;> omega

theorem step_down {per : Prop} {n x y : Nat} (hx : x < n) (h : Step per n x (-1) y) :
    y + 1 = x ∨ (per ∧ x = 0 ∧ y + 1 = n) := by
  obtain ⟨h1, _, _, h | ⟨hp, h | h⟩⟩ := h
  · left; omega
  · right; exact ⟨hp, by omega, by omega⟩
  · omega

theorem step_up {per : Prop} {n x y : Nat} (hx : x < n) (h : Step per n x 1 y) :
    y = x + 1 ∨ (per ∧ y = 0 ∧ x + 1 = n) := by
  obtain ⟨h1, _, _, h | ⟨hp, h | h⟩⟩ := h
  · left; omega
  · omega
  · right; exact ⟨hp, by omega, by omega⟩

theorem down_same {per : Prop} {n x y : Nat} (hx : x < n) (h : Step per n x (-1) y) (nx : Int) (a : Int → K)
    (hp : per → a 0 = a (n * nx)) : a (x * nx) = a (y * nx + nx) := by
  rcases step_down hx h with h | ⟨h, h1, h2⟩
  · congr 1; rw [← h]; push_cast; ring
  · have := hp h
    rw [← h2] at this
    rw [h1]
    convert this using 2 <;> push_cast <;> ring

theorem up_same {per : Prop} {n x y : Nat} (hx : x < n) (h : Step per n x 1 y) (nx : Int) (a : Int → K)
    (hp : per → a 0 = a (n * nx)) : a (x * nx + nx) = a (y * nx) := by
  rcases step_up hx h with h | ⟨h, h1, h2⟩
  · congr 1; rw [h]; push_cast; ring
  · have := hp h
    rw [← h2] at this
    rw [h1]
    convert this.symm using 2 <;> push_cast <;> ring

theorem down_fine {per : Prop} {n x y : Nat} (hx : x < n) (h : Step per n x (-1) y) (nx : Int) (a : Int → K)
    (hp : per → a 0 = a ((2 * n : Nat) * nx)) : a (2 * (x * nx)) = a ((2 * y + 1 : Nat) * nx + nx) := by
  rcases step_down hx h with h | ⟨h, h1, h2⟩
  · congr 1; rw [← h]; push_cast; ring
  · have := hp h
    rw [← h2] at this
    rw [h1]
    convert this using 2 <;> push_cast <;> ring

theorem up_fine {per : Prop} {n x y : Nat} (hx : x < n) (h : Step per n x 1 y) (nx : Int) (a : Int → K)
    (hp : per → a 0 = a ((2 * n : Nat) * nx)) : a (2 * (x * nx + nx)) = a ((2 * y : Nat) * nx) := by
  rcases step_up hx h with h | ⟨h, h1, h2⟩
  · congr 1; rw [h]; push_cast; ring
  · have := hp h
    rw [← h2] at this
    rw [h1]
    convert this.symm using 2 <;> push_cast <;> ring

/-- Only the areas of the faces of the blocks matter. -/
theorem AreasFit.congr {d : Dims} (hok : d.Ok) {Gc Gc' Gf Gf' : Geom K} {f f1 f2 : Nat}
    (hc : ∀ y x, ylo d f ≤ y → y ≤ yhi d f → xlo d f ≤ x → x ≤ xhi d f → faceArea d Gc f y x = faceArea d Gc' f y x)
    (hf : ∀ y x, ylo d f ≤ y → y ≤ yhi d f → xlo d f ≤ x → x ≤ xhi d f →
      faceArea d Gf (opp f) y x = faceArea d Gf' (opp f) y x)
    (h : AreasFit d Gc' Gf' f f1 f2) : AreasFit d Gc Gf f f1 f2 := by
  intro y x y0 y1 x0 x1
  have ey : yhi d f = ylo d f + ny d f - 1 ∧ (ny d f = 1 ∨ 1 < ny d f ∧ ny d f % 2 = 0) := by
    unfold ylo yhi ny
    split
    · exact ⟨hok.krange, hok.x3⟩
    · exact ⟨hok.jrange, hok.x2⟩
  have ex : xhi d f = xlo d f + nx d f - 1 ∧ 0 < nx d f ∧ (nx d f = 1 ∨ nx d f % 2 = 0) := by
    have := hok.x1; have := hok.x2
    unfold xlo xhi nx
    split
    · exact ⟨hok.jrange, by omega, by omega⟩
    · exact ⟨d.irange, by omega, by omega⟩
  have hk : kidSum d f f1 f2 y x (faceArea d Gf (opp f)) = kidSum d f f1 f2 y x (faceArea d Gf' (opp f)) := by
    unfold kidSum
    congr 1
    apply List.map_congr_left
    intro y' hy'
    congr 1
    apply List.map_congr_left
    intro x' hx'
    unfold kids at hy' hx'
    unfold subY at y0 y1 hy'
    unfold subX at x0 x1 hx'
    apply hf
    · split_ifs at hy' y0 y1 <;> simp at hy' y0 y1 <;> omega
    · split_ifs at hy' y0 y1 <;> simp at hy' y0 y1 <;> omega
    · split_ifs at hx' x0 x1 <;> simp at hx' x0 x1 <;> omega
    · split_ifs at hx' x0 x1 <;> simp at hx' x0 x1 <;> omega
  obtain ⟨a, b⟩ := h y x y0 y1 x0 x1
  rw [hk, hc, a]
  · exact ⟨rfl, b⟩
  · unfold subY at y0; split_ifs at y0 <;> simp at y0 <;> omega
  · unfold subY at y1; split_ifs at y1 <;> simp at y1 <;> omega
  · unfold subX at x0; split_ifs at x0 <;> simp at x0 <;> omega
  · unfold subX at x1; split_ifs at x1 <;> simp at x1 <;> omega

/-- The fine cells covered by a coarse cell in one direction. -/
theorem kid_parts {on : Bool} {n s lo x : Int} {px qx b : Nat} (hon : on = true ↔ 1 < n)
    (hev : on = true → n % 2 = 0) (hq : on = true → qx = 2 * px + b) (hlo : on = true → lo = s + b * (n / 2))
    (hq0 : on = false → (qx : Int) * n = px * n + (x - s)) :
    (kids (1 < n) s lo x).map (fun x' => (qx : Int) * n + (x' - s)) = parts on (px * n + (x - s)) := by
  unfold kids parts
  cases on
  · rw [if_neg (by simpa using hon)]
    simp [hq0 rfl]
  · rw [if_pos (hon.1 rfl)]
    have h1 := hev rfl
    have h2 := hq rfl
    have h3 := hlo rfl
    obtain ⟨h, rfl⟩ : ∃ h, n = 2 * h := ⟨n / 2, by omega⟩
    have h4 : 2 * h / 2 = h := by omega
    rw [h4] at h3
    subst h2 h3
    simp only [List.map_cons, List.map_nil, if_true, List.cons.injEq, and_true]
    push_cast
    constructor <;> ring

theorem kidSum_parts {d : Dims} {f f1 f2 : Nat} {y x : Int} {py px qy qx : Nat} {ony onx : Bool} (a : Int → Int → K)
    (hy : (kids (1 < ny d f) (ylo d f) (subY d f f2).1 y).map (fun y' => (qy : Int) * ny d f + (y' - ylo d f)) =
      parts ony (py * ny d f + (y - ylo d f)))
    (hx : (kids (1 < nx d f) (xlo d f) (subX d f f1).1 x).map (fun x' => (qx : Int) * nx d f + (x' - xlo d f)) =
      parts onx (px * nx d f + (x - xlo d f))) :
    kidSum d f f1 f2 y x (fun y' x' => a (qy * ny d f + (y' - ylo d f)) (qx * nx d f + (x' - xlo d f))) =
      ((parts ony (py * ny d f + (y - ylo d f))).map fun y' =>
        ((parts onx (px * nx d f + (x - xlo d f))).map fun x' => a y' x').sum).sum := by
  unfold kidSum
  rw [← hy, ← hx, List.map_map]
  simp only [List.map_map]
  rfl

section
variable (d : Dims) (A : GlobalGeom K) (L : Nat) (p : Pos) (y x : Int)

omit [Field K] in
theorem area0 : faceArea d (localGeom d A L p) 0 y x =
    A.a1 L (p.x3 * d.nx3 + (y - d.ks), p.x2 * d.nx2 + (x - d.js), p.x1 * d.nx1) := by
  simp [faceArea, Grid.faceIdx, localGeom]

omit [Field K] in
theorem area1 : faceArea d (localGeom d A L p) 1 y x =
    A.a1 L (p.x3 * d.nx3 + (y - d.ks), p.x2 * d.nx2 + (x - d.js), p.x1 * d.nx1 + d.nx1) := by
  simp [faceArea, Grid.faceIdx, localGeom, Dims.ie, Dims.is]

omit [Field K] in
theorem area2 : faceArea d (localGeom d A L p) 2 y x =
    A.a2 L (p.x3 * d.nx3 + (y - d.ks), p.x2 * d.nx2, p.x1 * d.nx1 + (x - d.is)) := by
  simp [faceArea, Grid.faceIdx, localGeom]

omit [Field K] in
theorem area3 (h : 1 < d.nx2) : faceArea d (localGeom d A L p) 3 y x =
    A.a2 L (p.x3 * d.nx3 + (y - d.ks), p.x2 * d.nx2 + d.nx2, p.x1 * d.nx1 + (x - d.is)) := by
  simp [faceArea, Grid.faceIdx, localGeom, Dims.je, Dims.js, h]

omit [Field K] in
theorem area4 : faceArea d (localGeom d A L p) 4 y x =
    A.a3 L (p.x3 * d.nx3, p.x2 * d.nx2 + (y - d.js), p.x1 * d.nx1 + (x - d.is)) := by
  simp [faceArea, Grid.faceIdx, localGeom]

omit [Field K] in
theorem area5 (h : 1 < d.nx3) : faceArea d (localGeom d A L p) 5 y x =
    A.a3 L (p.x3 * d.nx3 + d.nx3, p.x2 * d.nx2 + (y - d.js), p.x1 * d.nx1 + (x - d.is)) := by
  simp [faceArea, Grid.faceIdx, localGeom, Dims.ke, Dims.ks, h]

end

theorem dim_parts {on : Bool} {n s e x : Int} {px qx b : Nat} (hon : on = true → 1 < n ∧ n % 2 = 0)
    (hoff : on = false → n = 1 ∧ px = 0 ∧ qx = 0) (hb : b < 2) (hq : on = true → qx = 2 * px + b)
    (he : e = s + n - 1) (h1 : (if b = 0 then (s, e - n / 2) else (s + n / 2, e)).1 ≤ x)
    (h2 : x ≤ (if b = 0 then (s, e - n / 2) else (s + n / 2, e)).2) :
    (kids (1 < n) s (if b = 0 then (s, e - n / 2) else (s + n / 2, e)).1 x).map (fun x' => (qx : Int) * n + (x' - s)) =
      parts on (px * n + (x - s)) := by
  apply kid_parts
  · constructor
    · exact fun h => (hon h).1
    · intro h
      by_contra h'
      have := (hoff (by simpa using h')).1
      omega
  · exact fun h => (hon h).2
  · exact hq
  · intro _
    obtain rfl | rfl : b = 0 ∨ b = 1 := by omega
    · simp
    · simp
  · intro h
    obtain ⟨rfl, rfl, rfl⟩ := hoff h
    obtain rfl | rfl : b = 0 ∨ b = 1 := by omega
    · simp only [if_true] at h1 h2
      simp; omega
    · simp only [Nat.one_ne_zero, if_false] at h1 h2
      simp; omega

section
variable {m : Mesh} (hm : m.Valid) {ml : Bool} {d : Dims} (hd : SizesOk m ml d) (hok : d.Ok) {A : GlobalGeom K}
  (hA : A.Nested m d) {L : Nat} (hL : m.rootLevel ≤ L) {p r : Pos} (hp : Dom m L p)

include hd hok in
theorem sizes2 : (m.f2 = true → 1 < d.nx2 ∧ d.nx2 % 2 = 0) ∧ (m.f2 = false → d.nx2 = 1) ∧ d.je = d.js + d.nx2 - 1 := by
  have h := hok.x2
  refine ⟨fun h2 => ?_, hd.o2, ?_⟩
  · have := (hd.n2 h2).2; omega
  · unfold Dims.je Dims.js; split <;> omega

include hd hok in
theorem sizes3 : (m.f3 = true → 1 < d.nx3 ∧ d.nx3 % 2 = 0) ∧ (m.f3 = false → d.nx3 = 1) ∧ d.ke = d.ks + d.nx3 - 1 := by
  have h := hok.x3
  refine ⟨fun h2 => ?_, hd.o3, ?_⟩
  · have := (hd.n3 h2).2; omega
  · unfold Dims.ke Dims.ks; split <;> omega

include hm hd hok hA hL hp in
/-- Coarse cell faces are made of the fine ones of the block at its position. -/
theorem areas_fit {f : Nat} (ha : Active d f) (hs : Shift m L p (off1 f) (off2 f) (off3 f) r) {n : Fin 8}
    (hn : n.val < m.nleaf) (hf : Tree.Face (off1 f) (off2 f) (off3 f) n) {f1 f2 : Nat}
    (ht : (f1, f2) = Tree.trans (off1 f) (off2 f) (off3 f) (n.val % 2) (n.val / 2 % 2) (n.val / 4 % 2))
    (hz : ∀ y x, ylo d f ≤ y → y ≤ yhi d f → xlo d f ≤ x → x ≤ xhi d f →
      faceArea d (localGeom d A L p) f y x ≠ 0) :
    AreasFit d (localGeom d A L p) (localGeom d A (L + 1) (r.child n)) f f1 f2 := by
  obtain ⟨p1, p2, p3⟩ := (dom_iff_ge hL).1 hp
  obtain ⟨s21, s22, s23⟩ := sizes2 hd hok
  obtain ⟨s31, s32, s33⟩ := sizes3 hd hok
  obtain ⟨m1, m2, m3⟩ := nmax_succ hL
  have hq := (hs.dom hL).child hm hL hn
  obtain ⟨q1, q2, q3⟩ := (dom_iff_ge (by omega)).1 hq
  have c1 : (r.child n).x1 = 2 * r.x1 + n.val % 2 := rfl
  have c2 : (r.child n).x2 = 2 * r.x2 + n.val / 2 % 2 := rfl
  have c3 : (r.child n).x3 = 2 * r.x3 + n.val / 4 % 2 := rfl
  have z2 : m.f2 = false → p.x2 = 0 ∧ (r.child n).x2 = 0 := by
    intro h2
    have e1 : m.nmax2 L = 1 := by simp [Mesh.nmax2, h2]
    have e2 : m.nmax2 (L + 1) = 1 := by simp [Mesh.nmax2, h2]
    omega
  have z3 : m.f3 = false → p.x3 = 0 ∧ (r.child n).x3 = 0 := by
    intro h2
    have e1 : m.nmax3 L = 1 := by simp [Mesh.nmax3, h2]
    have e2 : m.nmax3 (L + 1) = 1 := by simp [Mesh.nmax3, h2]
    omega
  have hx1 := hok.x1
  have hx2 : 1 ≤ d.nx2 := by have := hok.x2; omega
  have hx3 : 1 ≤ d.nx3 := by have := hok.x3; omega
  have e2 := f2_iff hd
  have e3 := f3_iff hd
  have h6 : f < 6 := by unfold Active at ha; omega
  have a2 : 2 ≤ f → f < 4 → m.f2 = true := by intro _ _; rw [e2]; unfold Active at ha; omega
  have a3 : 4 ≤ f → m.f3 = true := by intro _; rw [e3]; unfold Active at ha; omega
  intro y x y0 y1 x0 x1
  suffices he : faceArea d (localGeom d A L p) f y x =
      kidSum d f f1 f2 y x (faceArea d (localGeom d A (L + 1) (r.child n)) (opp f)) by
    refine ⟨he, ?_⟩
    rw [← he]
    apply hz
    · revert y0; unfold subY ny; split <;> split <;> simp only <;> omega
    · revert y1; unfold subY ny; split <;> split <;> simp only <;> omega
    · revert x0; unfold subX nx; split <;> split <;> simp only <;> omega
    · revert x1; unfold subX nx; split <;> split <;> simp only <;> omega
  obtain ⟨fa1, fb1, fa2, fb2, fa3, fb3⟩ := hf
  interval_cases f
  · simp [off1, off2, off3, Tree.trans] at ht hs fa1 fb1
    obtain ⟨rfl, rfl⟩ := ht
    have t2 := step_zero p2 hs.s2
    have t3 := step_zero p3 hs.s3
    have hy := dim_parts (on := m.f3) (n := d.nx3) (s := d.ks) (e := d.ke) (x := y) (px := p.x3) (qx := (r.child n).x3)
      (b := n.val / 4 % 2) s31 (fun h => ⟨s32 h, z3 h⟩) (by omega) (fun _ => by omega) s33 y0 y1
    have hx := dim_parts (on := m.f2) (n := d.nx2) (s := d.js) (e := d.je) (x := x) (px := p.x2) (qx := (r.child n).x2)
      (b := n.val / 2 % 2) s21 (fun h => ⟨s22 h, z2 h⟩) (by omega) (fun _ => by omega) s23 x0 x1
    have h := kidSum_parts (d := d) (f := 0) (f1 := n.val / 2 % 2) (f2 := n.val / 4 % 2)
      (fun v w => A.a1 (L + 1) (v, w, (r.child n).x1 * d.nx1 + d.nx1)) hy hx
    have ho : faceArea d (localGeom d A (L + 1) (r.child n)) (opp 0) =
        fun v w => (fun v w => A.a1 (L + 1) (v, w, (r.child n).x1 * d.nx1 + d.nx1)) ((r.child n).x3 * d.nx3 + (v - d.ks)) ((r.child n).x2 * d.nx2 + (w - d.js)) := by
      funext v w
      exact area1 d A (L + 1) (r.child n) v w
    rw [ho, area0 d A L p y x, hA.n1]
    refine Eq.trans ?_ h.symm
    refine congrArg List.sum (List.map_congr_left fun v _ => congrArg List.sum (List.map_congr_left fun w _ => ?_))
    have hf := down_fine p1 hs.s1 d.nx1 (fun i => A.a1 (L + 1) (v, w, i))
      (fun h => by rw [← m1]; exact hA.p1 h (L + 1) v w)
    rw [show 2 * r.x1 + 1 = (r.child n).x1 by omega] at hf
    exact hf
  · simp [off1, off2, off3, Tree.trans] at ht hs fa1 fb1
    obtain ⟨rfl, rfl⟩ := ht
    have t2 := step_zero p2 hs.s2
    have t3 := step_zero p3 hs.s3
    have hy := dim_parts (on := m.f3) (n := d.nx3) (s := d.ks) (e := d.ke) (x := y) (px := p.x3) (qx := (r.child n).x3)
      (b := n.val / 4 % 2) s31 (fun h => ⟨s32 h, z3 h⟩) (by omega) (fun _ => by omega) s33 y0 y1
    have hx := dim_parts (on := m.f2) (n := d.nx2) (s := d.js) (e := d.je) (x := x) (px := p.x2) (qx := (r.child n).x2)
      (b := n.val / 2 % 2) s21 (fun h => ⟨s22 h, z2 h⟩) (by omega) (fun _ => by omega) s23 x0 x1
    have h := kidSum_parts (d := d) (f := 1) (f1 := n.val / 2 % 2) (f2 := n.val / 4 % 2)
      (fun v w => A.a1 (L + 1) (v, w, (r.child n).x1 * d.nx1)) hy hx
    have ho : faceArea d (localGeom d A (L + 1) (r.child n)) (opp 1) =
        fun v w => (fun v w => A.a1 (L + 1) (v, w, (r.child n).x1 * d.nx1)) ((r.child n).x3 * d.nx3 + (v - d.ks)) ((r.child n).x2 * d.nx2 + (w - d.js)) := by
      funext v w
      exact area0 d A (L + 1) (r.child n) v w
    rw [ho, area1 d A L p y x, hA.n1]
    refine Eq.trans ?_ h.symm
    refine congrArg List.sum (List.map_congr_left fun v _ => congrArg List.sum (List.map_congr_left fun w _ => ?_))
    have hf := up_fine p1 hs.s1 d.nx1 (fun i => A.a1 (L + 1) (v, w, i))
      (fun h => by rw [← m1]; exact hA.p1 h (L + 1) v w)
    rw [show 2 * r.x1 = (r.child n).x1 by omega] at hf
    exact hf
  · simp [off1, off2, off3, Tree.trans] at ht hs fa2 fb2
    obtain ⟨rfl, rfl⟩ := ht
    have t1 := step_zero p1 hs.s1
    have t3 := step_zero p3 hs.s3
    have hy := dim_parts (on := m.f3) (n := d.nx3) (s := d.ks) (e := d.ke) (x := y) (px := p.x3) (qx := (r.child n).x3)
      (b := n.val / 4 % 2) s31 (fun h => ⟨s32 h, z3 h⟩) (by omega) (fun _ => by omega) s33 y0 y1
    have hx := dim_parts (on := true) (n := d.nx1) (s := d.is) (e := d.ie) (x := x) (px := p.x1) (qx := (r.child n).x1)
      (b := n.val % 2) (fun _ => by omega) (fun h => by simp at h) (by omega) (fun _ => by omega) (by unfold Dims.ie Dims.is; ring) x0 x1
    have h := kidSum_parts (d := d) (f := 2) (f1 := n.val % 2) (f2 := n.val / 4 % 2)
      (fun v w => A.a2 (L + 1) (v, (r.child n).x2 * d.nx2 + d.nx2, w)) hy hx
    have ho : faceArea d (localGeom d A (L + 1) (r.child n)) (opp 2) =
        fun v w => (fun v w => A.a2 (L + 1) (v, (r.child n).x2 * d.nx2 + d.nx2, w)) ((r.child n).x3 * d.nx3 + (v - d.ks)) ((r.child n).x1 * d.nx1 + (w - d.is)) := by
      funext v w
      exact area3 d A (L + 1) (r.child n) v w (s21 (a2 (by omega) (by omega))).1
    rw [ho, area2 d A L p y x, hA.n2 (a2 (by omega) (by omega))]
    refine Eq.trans ?_ h.symm
    refine congrArg List.sum (List.map_congr_left fun v _ => congrArg List.sum (List.map_congr_left fun w _ => ?_))
    have hf := down_fine p2 hs.s2 d.nx2 (fun i => A.a2 (L + 1) (v, i, w))
      (fun h => by rw [← m2 (a2 (by omega) (by omega))]; exact hA.p2 (a2 (by omega) (by omega)) h (L + 1) v w)
    rw [show 2 * r.x2 + 1 = (r.child n).x2 by omega] at hf
    exact hf
  · simp [off1, off2, off3, Tree.trans] at ht hs fa2 fb2
    obtain ⟨rfl, rfl⟩ := ht
    have t1 := step_zero p1 hs.s1
    have t3 := step_zero p3 hs.s3
    have hy := dim_parts (on := m.f3) (n := d.nx3) (s := d.ks) (e := d.ke) (x := y) (px := p.x3) (qx := (r.child n).x3)
      (b := n.val / 4 % 2) s31 (fun h => ⟨s32 h, z3 h⟩) (by omega) (fun _ => by omega) s33 y0 y1
    have hx := dim_parts (on := true) (n := d.nx1) (s := d.is) (e := d.ie) (x := x) (px := p.x1) (qx := (r.child n).x1)
      (b := n.val % 2) (fun _ => by omega) (fun h => by simp at h) (by omega) (fun _ => by omega) (by unfold Dims.ie Dims.is; ring) x0 x1
    have h := kidSum_parts (d := d) (f := 3) (f1 := n.val % 2) (f2 := n.val / 4 % 2)
      (fun v w => A.a2 (L + 1) (v, (r.child n).x2 * d.nx2, w)) hy hx
    have ho : faceArea d (localGeom d A (L + 1) (r.child n)) (opp 3) =
        fun v w => (fun v w => A.a2 (L + 1) (v, (r.child n).x2 * d.nx2, w)) ((r.child n).x3 * d.nx3 + (v - d.ks)) ((r.child n).x1 * d.nx1 + (w - d.is)) := by
      funext v w
      exact area2 d A (L + 1) (r.child n) v w
    rw [ho, area3 d A L p y x (s21 (a2 (by omega) (by omega))).1, hA.n2 (a2 (by omega) (by omega))]
    refine Eq.trans ?_ h.symm
    refine congrArg List.sum (List.map_congr_left fun v _ => congrArg List.sum (List.map_congr_left fun w _ => ?_))
    have hf := up_fine p2 hs.s2 d.nx2 (fun i => A.a2 (L + 1) (v, i, w))
      (fun h => by rw [← m2 (a2 (by omega) (by omega))]; exact hA.p2 (a2 (by omega) (by omega)) h (L + 1) v w)
    rw [show 2 * r.x2 = (r.child n).x2 by omega] at hf
    exact hf
  · simp [off1, off2, off3, Tree.trans] at ht hs fa3 fb3
    obtain ⟨rfl, rfl⟩ := ht
    have t1 := step_zero p1 hs.s1
    have t2 := step_zero p2 hs.s2
    have hy := dim_parts (on := m.f2) (n := d.nx2) (s := d.js) (e := d.je) (x := y) (px := p.x2) (qx := (r.child n).x2)
      (b := n.val / 2 % 2) s21 (fun h => ⟨s22 h, z2 h⟩) (by omega) (fun _ => by omega) s23 y0 y1
    have hx := dim_parts (on := true) (n := d.nx1) (s := d.is) (e := d.ie) (x := x) (px := p.x1) (qx := (r.child n).x1)
      (b := n.val % 2) (fun _ => by omega) (fun h => by simp at h) (by omega) (fun _ => by omega) (by unfold Dims.ie Dims.is; ring) x0 x1
    have h := kidSum_parts (d := d) (f := 4) (f1 := n.val % 2) (f2 := n.val / 2 % 2)
      (fun v w => A.a3 (L + 1) ((r.child n).x3 * d.nx3 + d.nx3, v, w)) hy hx
    have ho : faceArea d (localGeom d A (L + 1) (r.child n)) (opp 4) =
        fun v w => (fun v w => A.a3 (L + 1) ((r.child n).x3 * d.nx3 + d.nx3, v, w)) ((r.child n).x2 * d.nx2 + (v - d.js)) ((r.child n).x1 * d.nx1 + (w - d.is)) := by
      funext v w
      exact area5 d A (L + 1) (r.child n) v w (s31 (a3 (by omega))).1
    rw [ho, area4 d A L p y x, hA.n3 (a3 (by omega))]
    refine Eq.trans ?_ h.symm
    refine congrArg List.sum (List.map_congr_left fun v _ => congrArg List.sum (List.map_congr_left fun w _ => ?_))
    have hf := down_fine p3 hs.s3 d.nx3 (fun i => A.a3 (L + 1) (i, v, w))
      (fun h => by rw [← m3 (a3 (by omega))]; exact hA.p3 (a3 (by omega)) h (L + 1) v w)
    rw [show 2 * r.x3 + 1 = (r.child n).x3 by omega] at hf
    exact hf
  · simp [off1, off2, off3, Tree.trans] at ht hs fa3 fb3
    obtain ⟨rfl, rfl⟩ := ht
    have t1 := step_zero p1 hs.s1
    have t2 := step_zero p2 hs.s2
    have hy := dim_parts (on := m.f2) (n := d.nx2) (s := d.js) (e := d.je) (x := y) (px := p.x2) (qx := (r.child n).x2)
      (b := n.val / 2 % 2) s21 (fun h => ⟨s22 h, z2 h⟩) (by omega) (fun _ => by omega) s23 y0 y1
    have hx := dim_parts (on := true) (n := d.nx1) (s := d.is) (e := d.ie) (x := x) (px := p.x1) (qx := (r.child n).x1)
      (b := n.val % 2) (fun _ => by omega) (fun h => by simp at h) (by omega) (fun _ => by omega) (by unfold Dims.ie Dims.is; ring) x0 x1
    have h := kidSum_parts (d := d) (f := 5) (f1 := n.val % 2) (f2 := n.val / 2 % 2)
      (fun v w => A.a3 (L + 1) ((r.child n).x3 * d.nx3, v, w)) hy hx
    have ho : faceArea d (localGeom d A (L + 1) (r.child n)) (opp 5) =
        fun v w => (fun v w => A.a3 (L + 1) ((r.child n).x3 * d.nx3, v, w)) ((r.child n).x2 * d.nx2 + (v - d.js)) ((r.child n).x1 * d.nx1 + (w - d.is)) := by
      funext v w
      exact area4 d A (L + 1) (r.child n) v w
    rw [ho, area5 d A L p y x (s31 (a3 (by omega))).1, hA.n3 (a3 (by omega))]
    refine Eq.trans ?_ h.symm
    refine congrArg List.sum (List.map_congr_left fun v _ => congrArg List.sum (List.map_congr_left fun w _ => ?_))
    have hf := up_fine p3 hs.s3 d.nx3 (fun i => A.a3 (L + 1) (i, v, w))
      (fun h => by rw [← m3 (a3 (by omega))]; exact hA.p3 (a3 (by omega)) h (L + 1) v w)
    rw [show 2 * r.x3 = (r.child n).x3 by omega] at hf
    exact hf

include hd hok hL hp in
/-- Blocks of the same level use the same areas at their common face. -/
theorem areas_same (hA : A.Wraps m d) {f : Nat} (ha : Active d f) (hs : Shift m L p (off1 f) (off2 f) (off3 f) r) (y x : Int) :
    faceArea d (localGeom d A L p) f y x = faceArea d (localGeom d A L r) (opp f) y x := by
  obtain ⟨p1, p2, p3⟩ := (dom_iff_ge hL).1 hp
  have s21 := (sizes2 hd hok).1
  have s31 := (sizes3 hd hok).1
  have e2 := f2_iff hd
  have e3 := f3_iff hd
  have h6 : f < 6 := by unfold Active at ha; omega
  have a2 : 2 ≤ f → f < 4 → m.f2 = true := by intro _ _; rw [e2]; unfold Active at ha; omega
  have a3 : 4 ≤ f → m.f3 = true := by intro _; rw [e3]; unfold Active at ha; omega
  interval_cases f
  · simp [off1, off2, off3] at hs
    have t2 := step_zero p2 hs.s2
    have t3 := step_zero p3 hs.s3
    rw [area0 d A L p y x, show opp 0 = 1 from rfl, area1 d A L r y x, ← t2, ← t3]
    exact down_same p1 hs.s1 d.nx1 (fun i => A.a1 L ((r.x3 * d.nx3 + (y - d.ks)), (r.x2 * d.nx2 + (x - d.js)), i)) (fun h => hA.p1 h L _ _)
  · simp [off1, off2, off3] at hs
    have t2 := step_zero p2 hs.s2
    have t3 := step_zero p3 hs.s3
    rw [area1 d A L p y x, show opp 1 = 0 from rfl, area0 d A L r y x, ← t2, ← t3]
    exact up_same p1 hs.s1 d.nx1 (fun i => A.a1 L ((r.x3 * d.nx3 + (y - d.ks)), (r.x2 * d.nx2 + (x - d.js)), i)) (fun h => hA.p1 h L _ _)
  · simp [off1, off2, off3] at hs
    have t1 := step_zero p1 hs.s1
    have t3 := step_zero p3 hs.s3
    rw [area2 d A L p y x, show opp 2 = 3 from rfl, area3 d A L r y x (s21 (a2 (by omega) (by omega))).1, ← t1, ← t3]
    exact down_same p2 hs.s2 d.nx2 (fun i => A.a2 L ((r.x3 * d.nx3 + (y - d.ks)), i, (r.x1 * d.nx1 + (x - d.is)))) (fun h => hA.p2 (a2 (by omega) (by omega)) h L _ _)
  · simp [off1, off2, off3] at hs
    have t1 := step_zero p1 hs.s1
    have t3 := step_zero p3 hs.s3
    rw [area3 d A L p y x (s21 (a2 (by omega) (by omega))).1, show opp 3 = 2 from rfl, area2 d A L r y x, ← t1, ← t3]
    exact up_same p2 hs.s2 d.nx2 (fun i => A.a2 L ((r.x3 * d.nx3 + (y - d.ks)), i, (r.x1 * d.nx1 + (x - d.is)))) (fun h => hA.p2 (a2 (by omega) (by omega)) h L _ _)
  · simp [off1, off2, off3] at hs
    have t1 := step_zero p1 hs.s1
    have t2 := step_zero p2 hs.s2
    rw [area4 d A L p y x, show opp 4 = 5 from rfl, area5 d A L r y x (s31 (a3 (by omega))).1, ← t1, ← t2]
    exact down_same p3 hs.s3 d.nx3 (fun i => A.a3 L (i, (r.x2 * d.nx2 + (y - d.js)), (r.x1 * d.nx1 + (x - d.is)))) (fun h => hA.p3 (a3 (by omega)) h L _ _)
  · simp [off1, off2, off3] at hs
    have t1 := step_zero p1 hs.s1
    have t2 := step_zero p2 hs.s2
    rw [area5 d A L p y x (s31 (a3 (by omega))).1, show opp 5 = 4 from rfl, area4 d A L r y x, ← t1, ← t2]
    exact up_same p3 hs.s3 d.nx3 (fun i => A.a3 L (i, (r.x2 * d.nx2 + (y - d.js)), (r.x1 * d.nx1 + (x - d.is)))) (fun h => hA.p3 (a3 (by omega)) h L _ _)

end

end Verif.FluxMsg
