import Verif.Model.CosmicRay

/-!
# Specification of the cosmic-ray module

Vectors, the drag that scattering exerts on the cosmic rays along and across a field line, the backward Euler step of
the equations `∂F/∂t = -vmax σ·(F - v(E+Pc)/vmax)`, `∂E/∂t = -(v+vs)·σ·(F - v(E+Pc)/vmax)` with `Pc = E/3` stated in
cr_source.cpp:136-139, the fluxes of the transport equations, and streaming.
-/
namespace Verif.Cr

/-- Scalar product. -/
def dot (a b : V3) : ℝ := a.x * b.x + a.y * b.y + a.z * b.z

/-- `a + k b`. -/
def V3.add (a : V3) (k : ℝ) (b : V3) : V3 := ⟨a.x + k * b.x, a.y + k * b.y, a.z + k * b.z⟩

/-- The drag on a flux `x` with opacity `par` along the unit vector `n` and `perp` across it. -/
def drag (par perp : ℝ) (n x : V3) : V3 :=
  ⟨par * (dot n x * n.x) + perp * (x.x - dot n x * n.x),
   par * (dot n x * n.y) + perp * (x.y - dot n x * n.y),
   par * (dot n x * n.z) + perp * (x.z - dot n x * n.z)⟩

/-- The flux in the frame of the gas: what the gas carries along, enthalpy `E + Pc = 4E/3`, taken off. -/
noncomputable def slip (vmax : ℝ) (v : V3) (e : ℝ) (f : V3) : V3 := f.add (-(4 / 3 * e / vmax)) v

/-- The four numbers are the sine and cosine of two angles. -/
structure Angle.Ok (a : Angle) : Prop where
  t : a.st ^ 2 + a.ct ^ 2 = 1
  p : a.sp ^ 2 + a.cp ^ 2 = 1

/-- The direction with the given polar angle and azimuth. -/
def Angle.dir (a : Angle) : V3 := ⟨a.st * a.cp, a.st * a.sp, a.ct⟩

/-- `s`, `v` and `vt` are the opacities, the velocity of the gas and that of the waves of a cell: the velocity with the
density floor, the streaming velocity added and `1/s = 1/sigma_diff + 1/sigma_adv` if streaming is on (written such
that `sigma_adv` may vanish). -/
structure Coeffs (C : Cfg) (q : CellData) (g : Gas) (s v vt : V3) : Prop where
  d : 0 < q.sd.x ∧ 0 < q.sd.y ∧ 0 < q.sd.z
  a : 0 ≤ q.sa.x ∧ 0 ≤ q.sa.y ∧ 0 ≤ q.sa.z
  gas : v = ⟨g.m.x / max g.d C.dfloor, g.m.y / max g.d C.dfloor, g.m.z / max g.d C.dfloor⟩
  wave : vt = if C.stream then v.add 1 q.va else v
  series : if C.stream then s.x * (q.sd.x + q.sa.x) = q.sd.x * q.sa.x ∧ s.y * (q.sd.y + q.sa.y) = q.sd.y * q.sa.y
    ∧ s.z * (q.sd.z + q.sa.z) = q.sd.z * q.sa.z else s = q.sd

/-- Length of a vector. -/
noncomputable def len (v : V3) : ℝ := √(dot v v)

/-- Flux of energy and momentum along direction `d` of the transport equations
`∂E/∂t + ∇·(vmax F) = 0`, `∂F/∂t + vmax ∇Pc = 0`. -/
noncomputable def physFlux (vmax : ℝ) (d : Fin 3) (c : CRay) : CRay :=
  ⟨vmax * c.f.get d, ⟨if d = 0 then vmax * (c.e / 3) else 0, if d = 1 then vmax * (c.e / 3) else 0,
    if d = 2 then vmax * (c.e / 3) else 0⟩⟩

/-- The HLL mean of two fluxes with the waves `m ≤ 0 ≤ p`. -/
noncomputable def hll (m p fl fr ul ur : ℝ) : ℝ := (p * fl - m * fr + m * p * (ur - ul)) / (p - m)

/-- The sign of a number. -/
noncomputable def sgn (x : ℝ) : ℝ := open Classical in if 0 < x then 1 else if x < 0 then -1 else 0

end Verif.Cr
