import Verif.Model.Front

/-!
# Timers and printed output of setup and solve

The model of src/qpSWIFT.c in `Verif/Model/Solver.lean` leaves out the clock and the output. Here
the two routines are written again with both: `tic`/`toc` (POSIX version, src/timer.c 46-67) and
`PRINT`. `clk i` is the `i`-th reading of the clock. `mex` says whether the code was compiled with
`MATLAB_MEX_FILE`. Parts that neither read the clock nor print are shared with the other model.
-/

namespace Verif

variable {K : Type} [Zero K] [One K] [Add K] [Sub K] [Mul K] [Div K] [Neg K] [Scalar K]

/-- `toc` for Windows, src/timer.c lines 13-17: counter readings and frequency. -/
def tocWin (tic toc freq : Int) : K := Scalar.ofInt (toc - tic) / Scalar.ofInt freq

/-- `duration` of `toc` for macOS, src/timer.c lines 30-36, in the arithmetic of `uint64_t`. -/
def macDuration (tic toc numer denom : Nat) : Nat :=
  ((toc + 2 ^ 64 - tic) % 2 ^ 64 * numer) % 2 ^ 64 / denom

/-- `toc` for macOS, src/timer.c lines 27-39. -/
def tocMac (tic toc numer denom : Nat) : K :=
  Scalar.ofInt (macDuration tic toc numer denom) / Scalar.ofInt 1000000000

/-- The calls of `PRINT` in src/qpSWIFT.c, with the values printed. -/
inductive Line (K : Type) where
  /-- line 210: the ordering failed -/
  | amdFail
  /-- line 228: `Status` -/
  | status (v : Int)
  /-- line 486 -/
  | title
  /-- line 487 -/
  | rule
  /-- line 515: iteration, cost, norms of the residuals, average complementarity -/
  | iter (it : Int) (fval n_rx n_ry n_rz n_mu : K)
  /-- line 600: step lengths -/
  | step (alpha_p alpha_d : K)
  /-- lines 617-621: the message of success, times, iterations -/
  | optimal (solve kkt ldl : K) (it : Int)
  /-- lines 625-629 -/
  | maxit (solve kkt ldl : K) (it : Int)
  /-- line 634 -/
  | fatal
  /-- line 639 -/
  | kktfail

/-- Number of clock readings made so far and lines printed so far. -/
structure Io (K : Type) where
  now : Nat
  out : List (Line K)

/-- One more reading of the clock; the reading is `clk io.now`. -/
def Io.tick (io : Io K) : Io K := { io with now := io.now + 1 }

/-- Print lines. -/
def Io.print (io : Io K) (l : List (Line K)) : Io K := { io with out := io.out ++ l }

/-- The times in `stats`, include/Auxilary.h lines 59-62. -/
structure Times (K : Type) where
  tsetup : Option K
  tsolve : Option K
  kkt_time : Option K
  ldl_numeric : Option K

/-- The structure with the times in `stats`, the clock and the output. `acc` is the local variable
`kkt_time` of `QP_SOLVE`. -/
structure Timed (K : Type) where
  qp : QP K
  times : Times K
  io : Io K
  acc : K

/-- `QP_SETUP`, src/qpSWIFT.c lines 60-234. -/
def QP_SETUP_T (mex : Bool) (clk : Nat → Timespec) (amd : Amd) (a : SetupArgs K) (io : Io K) :
    M (Timed K) := do
  let i0 := io.now
  let io := io.tick
  let qp ← QP_SETUP amd a
  -- lines 209-212
  let io := if mex && a.Permut.isNone && decide (qp.stats.AMD_RESULT < 0) then
    io.print [.amdFail] else io
  -- lines 225-229
  let io := if qp.stats.Flag = QP_KKTFAIL then io.print [.status QP_KKTFAIL] else io
  let t : K := toc (clk i0) (clk io.now)
  pure { qp := qp
         times := { tsetup := some t, tsolve := none, kkt_time := none
                    ldl_numeric := some (Scalar.dec 0 0) }
         io := io.tick, acc := Scalar.dec 0 0 }

/-- `kktsolve_1`, src/Auxilary.c lines 471-515. -/
def kktsolve_1T (clk : Nat → Timespec) (t : Timed K) : M (Int × Timed K) := do
  let i0 := t.io.now
  let io := t.io.tick
  let r ← callNumeric t.qp.kkt
  let qp := { t.qp with kkt := r.2 }
  let ldl ← rdCell t.times.ldl_numeric
  let ldl := ldl + toc (clk i0) (clk io.now)
  let t := { t with io := io.tick, times := { t.times with ldl_numeric := some ldl } }
  if r.1 = qp.kkt.kktmatrix.n then do
    let q ← ldlSolve qp.kkt qp.delta
    let qp := { qp with delta := q.1, kkt := { qp.kkt with b := q.2 } }
    let delta_z ← copyOut qp.delta_z qp.kkt.b (qp.n + qp.p) (qp.n + qp.p + qp.m)
    let delta_s ← formDeltaS qp delta_z
    pure (1, { t with qp := { qp with delta_z := delta_z, delta_s := delta_s } })
  else pure (0, { t with qp := qp })

/-- src/qpSWIFT.c lines 540-579. -/
def directionsT (clk : Nat → Timespec) (t : Timed K) (mu : K) : M (Timed K × Bool) := do
  let qp := t.qp
  if Scalar.ltb qp.sigma_d qp.options.sigma then do
    let ds ← form_ds qp.ds qp.lambda qp.delta_s qp.delta_z qp.options.sigma mu qp.m
      QP_PURE_NEWTON_STEP
    let kpr ← updatekktmatrix qp.kkt.kktmatrix qp.s qp.z qp.m qp.n qp.p
    let kb ← updatekktmatrix_b qp.kkt.b qp.rx qp.ry qp.rz ds qp.z qp.n qp.m qp.p
    let qp := { qp with
      ds := ds
      kkt := { qp.kkt with b := kb, kktmatrix := { qp.kkt.kktmatrix with pr := kpr } } }
    let i0 := t.io.now
    let r ← kktsolve_1T clk { t with qp := qp, io := t.io.tick }
    let t := r.2
    let qp := t.qp
    if r.1 = 0 then
      pure ({ t with qp := { qp with stats := { qp.stats with Flag := QP_KKTFAIL } } }, true)
    else do
      let t := { t with acc := t.acc + toc (clk i0) (clk t.io.now), io := t.io.tick }
      let a ← findsteplength qp.s qp.delta_s qp.z qp.delta_z qp.m
      let rho ← formrho qp.s qp.delta_s qp.z qp.delta_z a.1 a.2 qp.m
      let r1 := fmin (Scalar.dec 1 0) rho
      let sigma := fmax qp.sigma_d (r1 * r1 * r1)
      let ds ← form_ds qp.ds qp.lambda qp.delta_s qp.delta_z sigma mu qp.m
        QP_CENTERING_CORRECTOR_STEP
      let kb ← updatekktmatrix_b qp.kkt.b qp.rx qp.ry qp.rz ds qp.z qp.n qp.m qp.p
      pure ({ t with qp := { qp with
        rho := some rho
        ds := ds
        kkt := { qp.kkt with b := kb }
        options := { qp.options with sigma := sigma }
        stats := { qp.stats with alpha_p := a.1, alpha_d := a.2, resolve_kkt := some 0 } } }, false)
  else do
    let sigma := qp.sigma_d
    let ds ← form_ds qp.ds qp.lambda qp.delta_s qp.delta_z sigma mu qp.m QP_CENTERING_STEP
    let kpr ← updatekktmatrix qp.kkt.kktmatrix qp.s qp.z qp.m qp.n qp.p
    let kb ← updatekktmatrix_b qp.kkt.b qp.rx qp.ry qp.rz ds qp.z qp.n qp.m qp.p
    pure ({ t with qp := { qp with
      ds := ds
      kkt := { qp.kkt with b := kb, kktmatrix := { qp.kkt.kktmatrix with pr := kpr } }
      options := { qp.options with sigma := sigma }
      stats := { qp.stats with resolve_kkt := some 1 } } }, false)

/-- src/qpSWIFT.c lines 583-601. -/
def takeStepT (clk : Nat → Timespec) (t : Timed K) : M (Timed K) := do
  let i0 := t.io.now
  let io := t.io.tick
  let qp ← kktsolve_2 t.qp
  let acc := t.acc + toc (clk i0) (clk io.now)
  let io := io.tick
  let a ← findsteplength qp.s qp.delta_s qp.z qp.delta_z qp.m
  let alpha_p := fmin (Scalar.dec 99 2 * a.1) (Scalar.dec 1 0)
  let alpha_d := fmin (Scalar.dec 99 2 * a.2) (Scalar.dec 1 0)
  let x ← updatevariables qp.x qp.delta_x alpha_p qp.n
  let y ← updatevariables qp.y qp.delta_y alpha_d qp.p
  let s ← updatevariables qp.s qp.delta_s alpha_p qp.m
  let z ← updatevariables qp.z qp.delta_z alpha_d qp.m
  let qp := { qp with
    x := x, y := y, s := s, z := z
    stats := { qp.stats with
      alpha_p := alpha_p, alpha_d := alpha_d, IterationCount := qp.stats.IterationCount + 1 } }
  let io := if 0 < qp.options.verbose then io.print [.step qp.stats.alpha_p qp.stats.alpha_d] else io
  pure { t with qp := qp, acc := acc, io := io }

/-- src/qpSWIFT.c line 515. -/
def printIter (st : Stats K) : M (Line K) := do
  let fval ← rdCell st.fval
  let n_rx ← rdCell st.n_rx
  let n_ry ← rdCell st.n_ry
  let n_rz ← rdCell st.n_rz
  let n_mu ← rdCell st.n_mu
  pure (.iter st.IterationCount fval n_rx n_ry n_rz n_mu)

/-- src/qpSWIFT.c lines 537-601. -/
def advanceT (clk : Nat → Timespec) (t : Timed K) : M (Timed K × Bool) := do
  let qp := t.qp
  let lambda ← formlambda qp.lambda qp.s qp.z qp.m
  let ll ← innerproduct lambda lambda qp.m
  let mu := ll / Scalar.ofInt qp.m
  let d ← directionsT clk { t with qp := { qp with lambda := lambda, mu := some mu } } mu
  if d.2 then pure (d.1, true)
  else do
    let t ← takeStepT clk d.1
    pure (t, false)

/-- Body of the main loop, src/qpSWIFT.c lines 503-602. -/
def solveBodyT (clk : Nat → Timespec) (t : Timed K) : M (Timed K × Bool) := do
  let qp ← evaluate t.qp
  let io ← (if 0 < qp.options.verbose then do
      let l ← printIter qp.stats
      pure (t.io.print [l])
    else pure t.io)
  let opt ← exitTest qp
  if opt then
    pure ({ t with qp := { qp with stats := { qp.stats with Flag := QP_OPTIMAL } }, io := io }, true)
  else advanceT clk { t with qp := qp, io := io }

/-- src/qpSWIFT.c lines 613-641: the closing messages. -/
def printEnd (qp : QP K) (ti : Times K) : M (List (Line K)) := do
  let ms : K := Scalar.dec 1000 0
  let l1 ← (if qp.stats.Flag = QP_OPTIMAL then do
      let tsolve ← rdCell ti.tsolve
      let tsetup ← rdCell ti.tsetup
      let kkt_time ← rdCell ti.kkt_time
      let ldl ← rdCell ti.ldl_numeric
      pure [Line.optimal ((tsolve + tsetup) * ms) (kkt_time * ms) (ldl * ms) qp.stats.IterationCount]
    else pure [])
  let l2 ← (if qp.stats.Flag = QP_MAXIT then do
      let tsolve ← rdCell ti.tsolve
      let kkt_time ← rdCell ti.kkt_time
      let ldl ← rdCell ti.ldl_numeric
      pure [Line.maxit (tsolve * ms) (kkt_time * ms) (ldl * ms) qp.stats.IterationCount]
    else pure [])
  let l3 := if qp.stats.Flag = QP_FATAL then [Line.fatal] else []
  let l4 := if qp.stats.Flag = QP_KKTFAIL then [Line.kktfail] else []
  pure (l1 ++ l2 ++ l3 ++ l4)

/-- `QP_SOLVE`, src/qpSWIFT.c lines 473-644. -/
def QP_SOLVE_T (mex : Bool) (clk : Nat → Timespec) (t : Timed K) : M (Int × Timed K) := do
  let i0 := t.io.now
  let io := t.io.tick
  let io := if !mex && decide (0 < t.qp.options.verbose) then io.print [.title, .rule] else io
  let t := { t with io := io, acc := Scalar.dec 0 0 }
  let t ← (if t.qp.stats.Flag ≠ QP_KKTFAIL then do
      let r ← forBrk 0 t.qp.options.maxit t fun _ t => solveBodyT clk t
      let t := r.1
      if t.qp.stats.IterationCount = t.qp.options.maxit then
        pure { t with qp := { t.qp with stats := { t.qp.stats with Flag := QP_MAXIT } } }
      else pure t
    else pure t)
  let ts : K := toc (clk i0) (clk t.io.now)
  let t := { t with io := t.io.tick
                    times := { t.times with tsolve := some ts, kkt_time := some t.acc } }
  let io ← (if 0 < t.qp.options.verbose then do
      let l ← printEnd t.qp t.times
      pure (t.io.print l)
    else pure t.io)
  pure (t.qp.stats.Flag, { t with io := io })

end Verif
