import Verif.Lemmas.TaskGraph

/-!
# Requirement tables for the task graphs and their exhaustive checks

The configuration types are finite; the `..._check` lemmas below are exhaustive over all their
elements (evaluated by the kernel). They feed the theorems of `Verif.Props.TaskGraph`, which
quantify over all executions.
-/
namespace Verif.TaskList
open TaskID T

/-- Rank used for both lists: length of the longest chain of dependencies and messages leading to
a task, six bits per task number. -/
def ranks : Nat :=
  59036561405634724861729606381232487714005484373054581910717695097878020493222507699341502108902607201022380112204060707046646530975361

/-- Data-flow requirements `(later, earlier tasks)` of both integrators that hold in every
configuration: fluxes are complete before they are differenced, sources are added before the
result is sent, ghost zones are received before they are set, everything that is sent or set is
sent and set before prolongation and before the primitive variables are computed, and time step and
refinement criteria are evaluated last. -/
def dataFlow : List (Nat × List Nat) :=
  [(CALC_HYDFLX, [DIFFUSE_HYD]), (CALC_FLDFLX, [DIFFUSE_FLD, CALC_HYDFLX]),
   (CALC_SCLRFLX, [CALC_HYDFLX]), (INT_HYD, [RECV_HYDFLX]), (INT_FLD, [RECV_FLDFLX]),
   (INT_RAD, [RECV_RADFLX]), (INT_SCLR, [RECV_SCLRFLX]), (INT_CRTC, [RECV_CRTCFLX]),
   (SRC_TERM, [INT_HYD]), (INT_CHM, [INT_SCLR]), (SEND_SCLR, [INT_CHM]),
   (SRCTERM_RAD, [INT_RAD]), (SEND_HYD, [INT_HYD, SRC_TERM, SRCTERM_RAD, SRCTERM_CRTC]),
   (SEND_FLD, [INT_FLD]), (SETB_HYD, [RECV_HYD, INT_HYD]), (SETB_FLD, [RECV_FLD, INT_FLD]),
   (SETB_SCLR, [RECV_SCLR, INT_SCLR]), (SETB_RAD, [RECV_RAD]), (SETB_CRTC, [RECV_CRTC]),
   (PROLONG, [SEND_HYD, SETB_HYD, SEND_FLD, SETB_FLD, SEND_SCLR, SETB_SCLR, SEND_RAD, SETB_RAD,
     SEND_CRTC, SETB_CRTC, RECV_HYDSH, RECV_FLDSH, RECV_SCLRSH]),
   (CONS2PRIM, [PROLONG, INT_HYD, SRC_TERM, SRCTERM_CRTC, CALC_HYDORB, CALC_FLDORB, SETB_HYD,
     SETB_FLD, SETB_SCLR, INT_FLD, INT_SCLR, INT_CHM, SEND_FLD, SEND_SCLR, RECV_HYDSH,
     RECV_FLDSH, RECV_SCLRSH, CALC_RADFLX, CALC_CRTCFLX, CALC_FLDFLX]),
   (PHY_BVAL, [CONS2PRIM, SETB_RAD, SETB_CRTC, SEND_RAD]), (USERWORK, [PHY_BVAL]),
   (NEW_DT, [USERWORK]), (FLAG_AMR, [USERWORK])]

/-- Requirements on the radiation and cosmic-ray source terms, which modify the conserved gas
variables: they act on the integrated variables, and primitives are computed (and the gas
variables sent) after them. These hold only in part, see below. -/
def sourceFlow : List (Nat × List Nat) :=
  [(SRCTERM_RAD, [INT_HYD]), (SRCTERM_CRTC, [INT_HYD]), (CONS2PRIM, [SRCTERM_RAD, SEND_HYD])]

/-- Everything precedes the release of the communication buffers. -/
def clearFlow (l : List Entry) : List (Nat × List Nat) :=
  [(CLEAR_ALLBND, (l.map Prod.fst).filter (fun k => !Nat.beq k CLEAR_ALLBND))]

/-- Mask of the tasks that may return `fail`. -/
def blk : Nat := maskOf blockingIds

theorem blk_false {k : Nat} (h : k ∉ blockingIds) : blk.testBit k = false := by
  rcases hb : blk.testBit k
  · rfl
  · exact absurd ((testBit_maskOf _ _).1 hb) h

/-! ## Exhaustive checks -/

theorem main_graph_check : ∀ c : Config, graphOk ranks messages (mainTasks c) = true := by
  rintro ⟨a, b, c, d, e, f, g, h, i, j⟩
  revert a b c d e f g h i j
  decide +kernel

theorem main_order_check : ∀ c : Config, orderOk blk (mainTasks c) dataFlow = true := by
  rintro ⟨a, b, c, d, e, f, g, h, i, j⟩
  revert a b c d e f g h i j
  decide +kernel

theorem main_clear_check :
    ∀ c : Config, orderOk blk (mainTasks c) (clearFlow (mainTasks c)) = true := by
  rintro ⟨a, b, c, d, e, f, g, h, i, j⟩
  revert a b c d e f g h i j
  decide +kernel

/-- Configurations in which the radiation and cosmic-ray source terms are ordered. -/
def sourceSafe (c : Config) : Bool := !(c.rad || c.cr) || !(c.multi || c.shear)

theorem main_source_check :
    ∀ c : Config, sourceSafe c = true → orderOk blk (mainTasks c) sourceFlow = true := by
  rintro ⟨a, b, c, d, e, f, g, h, i, j⟩
  revert a b c d e f g h i j
  decide +kernel

/-- The super-time-stepping list is only built when something diffuses
(`do_sts_hydro || do_sts_field || do_sts_scalar`, sts_task_list.cpp:60-95). -/
def StsConfig.legal (c : StsConfig) : Bool := c.hyd || c.fld || c.scal

theorem sts_graph_check :
    ∀ c : StsConfig, c.legal = true → graphOk ranks messages (stsTasks c) = true := by
  rintro ⟨a, b, c, d, e, f, g⟩
  revert a b c d e f g
  decide +kernel

theorem sts_order_check :
    ∀ c : StsConfig, c.legal = true → orderOk blk (stsTasks c) dataFlow = true := by
  rintro ⟨a, b, c, d, e, f, g⟩
  revert a b c d e f g
  decide +kernel

theorem sts_clear_check : ∀ c : StsConfig, c.legal = true →
    orderOk blk (stsTasks c) (clearFlow (stsTasks c)) = true := by
  rintro ⟨a, b, c, d, e, f, g⟩
  revert a b c d e f g
  decide +kernel

theorem main_clear_present (c : Config) : ∃ e ∈ mainTasks c, e.1 = CLEAR_ALLBND := by
  obtain ⟨a, b, c, d, e, f, g, h, i, j⟩ := c
  rw [← List.mem_map (f := Prod.fst), ← testBit_maskOf, ← tb_eq]
  revert a b c d e f g h i j
  decide +kernel

theorem sts_clear_present (c : StsConfig) : ∃ e ∈ stsTasks c, e.1 = CLEAR_ALLBND := by
  obtain ⟨a, b, c, d, e, f, g⟩ := c
  rw [← List.mem_map (f := Prod.fst), ← testBit_maskOf, ← tb_eq]
  revert a b c d e f g
  decide +kernel

end Verif.TaskList
