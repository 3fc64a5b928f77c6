import Verif.Model.Sched

/-!
# The task graphs of the main integrator and of the super-time-stepping integrator

Models of the `AddTask` sequences in `TimeIntegratorTaskList::TimeIntegratorTaskList`
(src/task_list/time_integrator.cpp:905-1205) and
`SuperTimeStepTaskList::SuperTimeStepTaskList` (src/task_list/sts_task_list.cpp:114-337).
Compile-time switches and run-time booleans become fields of `Config`.
-/
namespace Verif.TaskList

/-! Task numbers, `namespace HydroIntegratorTaskNames` (src/task_list/task_list.hpp:313-403). -/
namespace T
abbrev CLEAR_ALLBND : Nat := 1
abbrev CALC_HYDFLX : Nat := 2
abbrev CALC_FLDFLX : Nat := 3
abbrev CALC_RADFLX : Nat := 4
abbrev SEND_HYDFLX : Nat := 5
abbrev SEND_FLDFLX : Nat := 6
abbrev SEND_RADFLX : Nat := 7
abbrev SEND_CRTCFLX : Nat := 8
abbrev RECV_HYDFLX : Nat := 9
abbrev RECV_FLDFLX : Nat := 10
abbrev RECV_RADFLX : Nat := 11
abbrev RECV_CRTCFLX : Nat := 12
abbrev SRC_TERM : Nat := 13
abbrev SRCTERM_CRTC : Nat := 14
abbrev SRCTERM_RAD : Nat := 15
abbrev INT_CRTC : Nat := 16
abbrev INT_HYD : Nat := 17
abbrev INT_FLD : Nat := 18
abbrev INT_RAD : Nat := 19
abbrev INT_CHM : Nat := 20
abbrev SEND_CRTC : Nat := 21
abbrev SEND_HYD : Nat := 22
abbrev SEND_FLD : Nat := 23
abbrev SEND_RAD : Nat := 24
abbrev RECV_CRTC : Nat := 25
abbrev RECV_HYD : Nat := 26
abbrev RECV_FLD : Nat := 27
abbrev RECV_RAD : Nat := 28
abbrev SETB_CRTC : Nat := 29
abbrev SETB_HYD : Nat := 30
abbrev SETB_FLD : Nat := 31
abbrev SETB_RAD : Nat := 32
abbrev CALC_CRTCFLX : Nat := 33
abbrev PROLONG : Nat := 34
abbrev CONS2PRIM : Nat := 35
abbrev PHY_BVAL : Nat := 36
abbrev USERWORK : Nat := 37
abbrev NEW_DT : Nat := 38
abbrev FLAG_AMR : Nat := 39
abbrev SEND_HYDFLXSH : Nat := 40
abbrev SEND_HYDSH : Nat := 41
abbrev SEND_EMFSH : Nat := 42
abbrev SEND_FLDSH : Nat := 43
abbrev RECV_HYDFLXSH : Nat := 44
abbrev RECV_HYDSH : Nat := 45
abbrev RECV_EMFSH : Nat := 46
abbrev RECV_FLDSH : Nat := 47
abbrev DIFFUSE_HYD : Nat := 48
abbrev DIFFUSE_FLD : Nat := 49
abbrev CALC_SCLRFLX : Nat := 50
abbrev SEND_SCLRFLX : Nat := 51
abbrev RECV_SCLRFLX : Nat := 52
abbrev INT_SCLR : Nat := 53
abbrev SEND_SCLR : Nat := 54
abbrev RECV_SCLR : Nat := 55
abbrev SETB_SCLR : Nat := 56
abbrev DIFFUSE_SCLR : Nat := 57
abbrev SEND_SCLRFLXSH : Nat := 58
abbrev SEND_SCLRSH : Nat := 59
abbrev RECV_SCLRFLXSH : Nat := 60
abbrev RECV_SCLRSH : Nat := 61
abbrev SEND_HYDORB : Nat := 62
abbrev RECV_HYDORB : Nat := 63
abbrev CALC_HYDORB : Nat := 64
abbrev SEND_FLDORB : Nat := 65
abbrev RECV_FLDORB : Nat := 66
abbrev CALC_FLDORB : Nat := 67
abbrev CRTC_OPACITY : Nat := 68
abbrev RAD_MOMOPACITY : Nat := 69
abbrev SEND_RADFLXSH : Nat := 70
abbrev RECV_RADFLXSH : Nat := 71
abbrev SEND_RADSH : Nat := 72
abbrev RECV_RADSH : Nat := 73
abbrev SRCTERM_IMRAD : Nat := 74
end T

/-- Switches the task graph depends on: `STS_ENABLED`, `MAGNETIC_FIELDS_ENABLED`,
`NSCALARS > 0`, `pm->multilevel`, `SHEAR_PERIODIC`, `radiation_flag`
(`NR_RADIATION_ENABLED && !IM_RADIATION_ENABLED`, time_integrator.cpp:83), `CR_ENABLED`,
`ORBITAL_ADVECTION`, `pm->adaptive`, `pm->sts_integrator == "rkl1"`. -/
structure Config where
  sts : Bool
  mhd : Bool
  scal : Bool
  multi : Bool
  shear : Bool
  rad : Bool
  cr : Bool
  orb : Bool
  adaptive : Bool
  rkl1 : Bool
deriving DecidableEq, Repr

abbrev Entry := Nat × List Nat

/-- `if (b) { ... }` -/
def when (b : Bool) (l : List α) : List α := bif b then l else []

open T

/-- Task list of the main integrator, in the order of the `AddTask` calls
(time_integrator.cpp:906-1204). Each `AddTask(id, d1|d2|..)` is `(id, [d1, d2, ..])`. -/
def mainTasks (c : Config) : List Entry := List.flatten [
  -- lines 908-929
  (bif !c.sts then
    [(DIFFUSE_HYD, [])] ++
    (bif c.mhd then [(DIFFUSE_FLD, []), (CALC_HYDFLX, [DIFFUSE_HYD, DIFFUSE_FLD])]
     else [(CALC_HYDFLX, [DIFFUSE_HYD])]) ++
    when c.scal [(DIFFUSE_SCLR, []), (CALC_SCLRFLX, [CALC_HYDFLX, DIFFUSE_SCLR])]
   else
    [(CALC_HYDFLX, [])] ++ when c.scal [(CALC_SCLRFLX, [CALC_HYDFLX])]),
  -- lines 930-941
  (bif c.multi || c.shear then
    [(SEND_HYDFLX, [CALC_HYDFLX]), (RECV_HYDFLX, [CALC_HYDFLX])] ++
    (bif c.shear then
      [(SEND_HYDFLXSH, [RECV_HYDFLX]), (RECV_HYDFLXSH, [SEND_HYDFLX, RECV_HYDFLX]),
       (INT_HYD, [RECV_HYDFLXSH])]
     else [(INT_HYD, [RECV_HYDFLX])])
   else [(INT_HYD, [CALC_HYDFLX])]),
  -- lines 943-963
  when c.rad
    ([(CALC_RADFLX, [])] ++
     (bif c.multi || c.shear then
       [(SEND_RADFLX, [CALC_RADFLX]), (RECV_RADFLX, [CALC_RADFLX])] ++
       (bif c.shear then
         [(SEND_RADFLXSH, [RECV_RADFLX]), (RECV_RADFLXSH, [SEND_RADFLX, RECV_RADFLX]),
          (INT_RAD, [RECV_RADFLXSH])]
        else [(INT_RAD, [RECV_RADFLX])])
      else [(INT_RAD, [CALC_RADFLX])]) ++
     [(SRCTERM_RAD, [INT_RAD]), (SEND_RAD, [SRCTERM_RAD]), (RECV_RAD, []),
      (SETB_RAD, [RECV_RAD, SRCTERM_RAD])]),
  -- lines 965-978
  when c.cr
    ([(CALC_CRTCFLX, [])] ++
     (bif c.multi then
       [(SEND_CRTCFLX, [CALC_CRTCFLX]), (RECV_CRTCFLX, [CALC_CRTCFLX]),
        (INT_CRTC, [RECV_CRTCFLX])]
      else [(INT_CRTC, [CALC_CRTCFLX])]) ++
     [(SRCTERM_CRTC, [INT_CRTC]), (SEND_CRTC, [SRCTERM_CRTC]), (RECV_CRTC, []),
      (SETB_CRTC, [RECV_CRTC, SRCTERM_CRTC])]),
  -- lines 980-984
  (bif c.scal then [(SRC_TERM, [INT_HYD, INT_SCLR, INT_CHM])] else [(SRC_TERM, [INT_HYD])]),
  -- lines 986-1007
  (let srcAterm := [SRC_TERM] ++ when c.rad [SRCTERM_RAD] ++ when c.cr [SRCTERM_CRTC]
   bif c.orb then
    [(SEND_HYDORB, srcAterm), (RECV_HYDORB, []), (CALC_HYDORB, [SEND_HYDORB, RECV_HYDORB]),
     (SEND_HYD, [CALC_HYDORB]), (RECV_HYD, []), (SETB_HYD, [RECV_HYD, CALC_HYDORB])]
   else
    [(SEND_HYD, srcAterm), (RECV_HYD, []), (SETB_HYD, [RECV_HYD, SRC_TERM])]),
  -- lines 1009-1019
  when c.shear
    ([(SEND_HYDSH, [SETB_HYD]), (RECV_HYDSH, [SEND_HYDSH])] ++
     when c.rad [(SEND_RADSH, [SETB_RAD]), (RECV_RADSH, [SEND_RADSH, RECV_HYDSH])]),
  -- lines 1021-1050
  when c.scal
    ((bif c.multi || c.shear then
       [(SEND_SCLRFLX, [CALC_SCLRFLX]), (RECV_SCLRFLX, [CALC_SCLRFLX])] ++
       (bif c.shear then
         [(SEND_SCLRFLXSH, [RECV_SCLRFLX]), (RECV_SCLRFLXSH, [SEND_SCLRFLX, RECV_SCLRFLX]),
          (INT_SCLR, [RECV_SCLRFLXSH])]
        else [(INT_SCLR, [RECV_SCLRFLX])])
      else [(INT_SCLR, [CALC_SCLRFLX])]) ++
     [(INT_CHM, [INT_HYD, INT_SCLR])] ++
     (bif c.orb then
       [(SEND_SCLR, [CALC_HYDORB]), (RECV_SCLR, []), (SETB_SCLR, [RECV_SCLR, CALC_HYDORB])]
      else
       [(SEND_SCLR, [SRC_TERM]), (RECV_SCLR, []), (SETB_SCLR, [RECV_SCLR, SRC_TERM])]) ++
     when c.shear [(SEND_SCLRSH, [SETB_SCLR]), (RECV_SCLRSH, [SEND_SCLRSH])]),
  -- lines 1052-1168
  (bif c.mhd then
    [(CALC_FLDFLX, [CALC_HYDFLX]), (SEND_FLDFLX, [CALC_FLDFLX]), (RECV_FLDFLX, [SEND_FLDFLX])] ++
    (bif c.shear then
      [(SEND_EMFSH, [RECV_FLDFLX]), (RECV_EMFSH, [RECV_FLDFLX]), (INT_FLD, [RECV_EMFSH])]
     else [(INT_FLD, [RECV_FLDFLX])]) ++
    (bif c.orb then
      [(SEND_FLDORB, [INT_FLD]), (RECV_FLDORB, []), (CALC_FLDORB, [SEND_FLDORB, RECV_FLDORB]),
       (SEND_FLD, [CALC_FLDORB]), (RECV_FLD, []), (SETB_FLD, [RECV_FLD, CALC_FLDORB])]
     else
      [(SEND_FLD, [INT_FLD]), (RECV_FLD, []), (SETB_FLD, [RECV_FLD, INT_FLD])]) ++
    when c.shear [(SEND_FLDSH, [SETB_FLD]), (RECV_FLDSH, [SEND_FLDSH])] ++
    (bif c.multi then
      [(PROLONG,
        [SEND_HYD, SEND_FLD] ++
        (bif c.shear then
          (bif c.scal then [RECV_HYDSH, SEND_SCLR, RECV_SCLRSH, RECV_FLDSH]
           else [RECV_HYDSH, RECV_FLDSH])
         else
          (bif c.scal then [SETB_HYD, SETB_FLD, SEND_SCLR, SETB_SCLR]
           else [SETB_HYD, SETB_FLD])) ++
        when c.rad ([SEND_RAD, SETB_RAD] ++ when c.shear [RECV_RADSH]) ++
        when c.cr [SEND_CRTC, SETB_CRTC]),
       (CONS2PRIM, [PROLONG])]
     else
      (bif c.shear then
        (bif c.scal then [(CONS2PRIM, [RECV_HYDSH, RECV_FLDSH, RECV_SCLRSH])]
         else [(CONS2PRIM, [RECV_HYDSH, RECV_FLDSH])])
       else
        (bif c.scal then [(CONS2PRIM, [SETB_HYD, SETB_FLD, SETB_SCLR])]
         else [(CONS2PRIM, [SETB_HYD, SETB_FLD])])))
   else
    (bif c.multi then
      [(PROLONG,
        [SEND_HYD] ++
        (bif c.shear then
          (bif c.scal then [RECV_HYDSH, SEND_SCLR, RECV_SCLRSH] else [RECV_HYDSH])
         else
          (bif c.scal then [SETB_HYD, SEND_SCLR, SETB_SCLR] else [SETB_HYD])) ++
        when c.rad ([SEND_RAD, SETB_RAD] ++ when c.shear [RECV_RADSH]) ++
        when c.cr [SEND_CRTC, SETB_CRTC]),
       (CONS2PRIM, [PROLONG])]
     else
      (bif c.shear then
        (bif c.scal then [(CONS2PRIM, [RECV_HYDSH, RECV_SCLRSH])] else [(CONS2PRIM, [RECV_HYDSH])])
       else
        (bif c.scal then [(CONS2PRIM, [SETB_HYD, SETB_SCLR])] else [(CONS2PRIM, [SETB_HYD])])))),
  -- lines 1170-1193
  [(PHY_BVAL, [CONS2PRIM] ++ when c.rad ([SETB_RAD, SEND_RAD] ++ when c.shear [RECV_RADSH]) ++
      when c.cr [SETB_CRTC, SEND_CRTC])],
  when c.rad [(RAD_MOMOPACITY, [PHY_BVAL])],
  when c.cr [(CRTC_OPACITY, [PHY_BVAL])],
  -- lines 1195-1204
  (bif !c.sts || c.rkl1 then
    [(USERWORK, [PHY_BVAL] ++ when c.rad [RAD_MOMOPACITY] ++ when c.cr [CRTC_OPACITY]),
     (NEW_DT, [USERWORK])] ++
    (bif c.adaptive then [(FLAG_AMR, [USERWORK]), (CLEAR_ALLBND, [FLAG_AMR])]
     else [(CLEAR_ALLBND, [NEW_DT])])
   else [(CLEAR_ALLBND, [PHY_BVAL])])]

/-- Switches of the super-time-stepping list: `do_sts_hydro`, `do_sts_field`, `do_sts_scalar`
(sts_task_list.cpp:76-112), `pm->multilevel`, `SHEAR_PERIODIC`, `pm->adaptive`,
`pm->sts_integrator == "rkl2"`. -/
structure StsConfig where
  hyd : Bool
  fld : Bool
  scal : Bool
  multi : Bool
  shear : Bool
  adaptive : Bool
  rkl2 : Bool
deriving DecidableEq, Repr

/-- Task list of the super-time-stepping integrator (sts_task_list.cpp:115-336). -/
def stsTasks (c : StsConfig) : List Entry := List.flatten [
  when c.hyd [(DIFFUSE_HYD, [])],
  (bif c.fld then
    [(DIFFUSE_FLD, [])] ++ when c.hyd [(CALC_HYDFLX, [DIFFUSE_HYD, DIFFUSE_FLD])]
   else when c.hyd [(CALC_HYDFLX, [DIFFUSE_HYD])]),
  when c.scal
    ([(DIFFUSE_SCLR, [])] ++
     (bif c.hyd then [(CALC_SCLRFLX, [CALC_HYDFLX, DIFFUSE_SCLR])]
      else [(CALC_SCLRFLX, [DIFFUSE_SCLR])])),
  when c.hyd
    ((bif c.multi || c.shear then
       [(SEND_HYDFLX, [CALC_HYDFLX]), (RECV_HYDFLX, [CALC_HYDFLX])] ++
       (bif c.shear then
         [(SEND_HYDFLXSH, [RECV_HYDFLX]), (RECV_HYDFLXSH, [SEND_HYDFLX, RECV_HYDFLX]),
          (INT_HYD, [RECV_HYDFLXSH])]
        else [(INT_HYD, [RECV_HYDFLX])])
      else [(INT_HYD, [CALC_HYDFLX])]) ++
     [(SEND_HYD, [INT_HYD]), (RECV_HYD, []), (SETB_HYD, [RECV_HYD, INT_HYD])] ++
     when c.shear [(SEND_HYDSH, [SETB_HYD]), (RECV_HYDSH, [SEND_HYDSH])]),
  when c.scal
    ((bif c.multi || c.shear then
       [(SEND_SCLRFLX, [CALC_SCLRFLX]), (RECV_SCLRFLX, [CALC_SCLRFLX])] ++
       (bif c.shear then
         [(SEND_SCLRFLXSH, [RECV_SCLRFLX]), (RECV_SCLRFLXSH, [SEND_SCLRFLX, RECV_SCLRFLX]),
          (INT_SCLR, [RECV_SCLRFLXSH])]
        else [(INT_SCLR, [RECV_SCLRFLX])])
      else [(INT_SCLR, [CALC_SCLRFLX])]) ++
     [(SEND_SCLR, [INT_SCLR]), (RECV_SCLR, []), (SETB_SCLR, [RECV_SCLR, INT_SCLR])] ++
     when c.shear [(SEND_SCLRSH, [SETB_SCLR]), (RECV_SCLRSH, [SEND_SCLRSH])]),
  (bif c.fld then
    (bif c.hyd then [(CALC_FLDFLX, [CALC_HYDFLX])] else [(CALC_FLDFLX, [DIFFUSE_FLD])]) ++
    [(SEND_FLDFLX, [CALC_FLDFLX]), (RECV_FLDFLX, [SEND_FLDFLX])] ++
    (bif c.shear then
      [(SEND_EMFSH, [RECV_FLDFLX]), (RECV_EMFSH, [RECV_FLDFLX]), (INT_FLD, [RECV_EMFSH])]
     else [(INT_FLD, [RECV_FLDFLX])]) ++
    [(SEND_FLD, [INT_FLD]), (RECV_FLD, []), (SETB_FLD, [RECV_FLD, INT_FLD])] ++
    when c.shear [(SEND_FLDSH, [SETB_FLD]), (RECV_FLDSH, [SEND_FLDSH])] ++
    (bif c.multi then
      [(PROLONG,
        bif c.scal then
          (bif c.hyd then
            (bif c.shear then [SEND_HYD, RECV_HYDSH, SEND_FLD, RECV_FLDSH, SEND_SCLR, RECV_SCLRSH]
             else [SEND_HYD, SETB_HYD, SEND_FLD, SETB_FLD, SEND_SCLR, SETB_SCLR])
           else
            (bif c.shear then [SEND_FLD, RECV_FLDSH, SEND_SCLR, RECV_SCLRSH]
             else [SEND_FLD, SETB_FLD, SEND_SCLR, SETB_SCLR]))
        else
          (bif c.hyd then
            (bif c.shear then [SEND_HYD, RECV_HYDSH, SEND_FLD, RECV_FLDSH]
             else [SEND_HYD, SETB_HYD, SEND_FLD, SETB_FLD])
           else
            (bif c.shear then [SEND_FLD, RECV_FLDSH] else [SEND_FLD, SETB_FLD]))),
       (CONS2PRIM, [PROLONG])]
     else
      [(CONS2PRIM,
        bif c.scal then
          (bif c.hyd then
            (bif c.shear then [RECV_HYDSH, RECV_FLDSH, RECV_SCLRSH]
             else [SETB_HYD, SETB_FLD, SETB_SCLR])
           else
            (bif c.shear then [RECV_FLDSH, RECV_SCLRSH] else [SETB_FLD, SETB_SCLR]))
        else
          (bif c.hyd then
            (bif c.shear then [RECV_HYDSH, RECV_FLDSH] else [SETB_HYD, SETB_FLD])
           else (bif c.shear then [RECV_FLDSH] else [SETB_FLD])))])
   else bif c.hyd then
    (bif c.multi then
      [(PROLONG,
        bif c.scal then
          (bif c.shear then [SEND_HYD, RECV_HYDSH, SEND_SCLR, RECV_SCLRSH]
           else [SEND_HYD, SETB_HYD, SEND_SCLR, SETB_SCLR])
        else
          (bif c.shear then [SEND_HYD, RECV_HYDSH] else [SEND_HYD, SETB_HYD])),
       (CONS2PRIM, [PROLONG])]
     else
      [(CONS2PRIM,
        bif c.scal then
          (bif c.shear then [RECV_HYDSH, RECV_SCLRSH] else [SETB_HYD, SETB_SCLR])
        else (bif c.shear then [RECV_HYDSH] else [SETB_HYD]))])
   else
    (bif c.multi then
      [(PROLONG, bif c.shear then [SEND_SCLR, RECV_SCLRSH] else [SEND_SCLR, SETB_SCLR]),
       (CONS2PRIM, [PROLONG])]
     else [(CONS2PRIM, bif c.shear then [RECV_SCLRSH] else [SETB_SCLR])])),
  [(PHY_BVAL, [CONS2PRIM])],
  (bif c.rkl2 then
    [(USERWORK, [PHY_BVAL]), (NEW_DT, [USERWORK])] ++
    (bif c.adaptive then [(FLAG_AMR, [USERWORK]), (CLEAR_ALLBND, [FLAG_AMR])]
     else [(CLEAR_ALLBND, [NEW_DT])])
   else [(CLEAR_ALLBND, [PHY_BVAL])])]

/-- Receive tasks with the send task whose messages they wait for: the `SEND_x`/`RECV_x` pairs
(time_integrator.cpp:1753-2110 and corresponding lines of sts_task_list.cpp; each `RECV_x` task
polls the boundary buffers filled by `SEND_x` of the neighbours). -/
def messages : List (Nat × Nat) :=
  [(RECV_HYDFLX, SEND_HYDFLX), (RECV_FLDFLX, SEND_FLDFLX), (RECV_RADFLX, SEND_RADFLX),
   (RECV_CRTCFLX, SEND_CRTCFLX), (RECV_CRTC, SEND_CRTC), (RECV_HYD, SEND_HYD),
   (RECV_FLD, SEND_FLD), (RECV_RAD, SEND_RAD), (RECV_HYDFLXSH, SEND_HYDFLXSH),
   (RECV_HYDSH, SEND_HYDSH), (RECV_EMFSH, SEND_EMFSH), (RECV_FLDSH, SEND_FLDSH),
   (RECV_SCLRFLX, SEND_SCLRFLX), (RECV_SCLR, SEND_SCLR), (RECV_SCLRFLXSH, SEND_SCLRFLXSH),
   (RECV_SCLRSH, SEND_SCLRSH), (RECV_HYDORB, SEND_HYDORB), (RECV_FLDORB, SEND_FLDORB),
   (RECV_RADFLXSH, SEND_RADFLXSH), (RECV_RADSH, SEND_RADSH)]

/-- Tasks that may return `fail` (all others return `success` or `next` in a legal stage). -/
def blockingIds : List Nat := messages.map Prod.fst

end Verif.TaskList
