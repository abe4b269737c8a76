import Verif.Proofs.Effects

/-!
# C44: inputs are not modified
-/

set_option linter.constructorNameAsVariable false

namespace FBE.Props

open Mem

variable {V : Type*}

/-- The analysis accepts the functions of both packages and finds their results to be new arrays. -/
theorem funcs_check (k : Pkg) (f : Fn) :
    ((check (funcOf k f).body []).map fun G => (funcOf k f).rets.all fun x => decide (x ∈ G))
      = some true := by
  cases k <;> cases f <;> decide +kernel

/-- C44: in every execution of a function of either package, at every moment, also when an exception
is raised, all arrays that existed before the call (the inputs, whatever views of each other they
are, and any others) have the contents they had before the call; and the arrays returned share no
memory with them, so that later changes of a result do not change an input either. -/
theorem C44_inputs_unchanged (k : Pkg) (f : Fn) {σ τ : State V} {d : Bool}
    (h : Exec (funcOf k f).body σ τ d) :
    (∀ l < σ.next, τ.heap l = σ.heap l) ∧
    (d = true → ∀ x ∈ (funcOf k f).rets, ∀ l, τ.env x = some l → σ.next ≤ l) := by
  have hc := funcs_check k f
  rw [Option.map_eq_some_iff] at hc
  obtain ⟨G, hG, hr⟩ := hc
  obtain ⟨h1, _, h3⟩ := check_sound h σ.next [] G hG le_rfl (fun x hx => by cases hx)
  exact ⟨h1, fun hd x hx l hl =>
    h3 hd x (of_decide_eq_true (List.all_eq_true.1 hr x hx)) l hl⟩

/-- C44: the same for the functions that the metrics are built of, called directly (for instance
`linear_sum_assignment` of the torch package, which works on a copy of the matrix, or the solvers).  Their results may be
views of the arguments. -/
theorem C44_parts (k : Pkg) {F : Func} (hF : F ∈ partsOf k) {σ τ : State V} {d : Bool} (h : Exec F.body σ τ d) :
    ∀ l < σ.next, τ.heap l = σ.heap l := by
  have hc : ∀ F ∈ partsOf k, (check F.body []).isSome = true := by cases k <;> decide +kernel
  obtain ⟨G, hG⟩ := Option.isSome_iff_exists.1 (hc F hF)
  exact (check_sound h σ.next [] G hG le_rfl (fun x hx => by cases hx)).1

/-- C44: the assignment solvers return new arrays. -/
theorem C44_assignment_fresh (k : Pkg) {F : Func} (hF : F = hungarianF ∨ F = lsaInfF k) {σ τ : State V}
    (h : Exec F.body σ τ true) : ∀ x ∈ F.rets, ∀ l, τ.env x = some l → σ.next ≤ l := by
  have hc : ∀ F ∈ [hungarianF, lsaInfF k],
      ((check F.body []).map fun G => F.rets.all fun x => decide (x ∈ G)) = some true := by cases k <;> decide +kernel
  have h1 := hc F (by simpa using hF)
  rw [Option.map_eq_some_iff] at h1
  obtain ⟨G, hG, hr⟩ := h1
  obtain ⟨-, _, h3⟩ := check_sound h σ.next [] G hG le_rfl (fun x hx => by cases hx)
  exact fun x hx l hl => h3 rfl x (of_decide_eq_true (List.all_eq_true.1 hr x hx)) l hl

/-- The parts that return new arrays: all but `conjugate_gradient` and `block_toeplitz_conjugate_gradient`, which return
the initial value itself if no iteration is done, and `_clamp` of numpy, which returns its argument if there is nothing
to clamp. -/
def freshParts (k : Pkg) : List Func :=
  [removeMeanF, normalizeF k, cohToNegSdrF k, hungarianF, lsaInfF k, solvePermF k, solvePerm2F k, toeplitzF k,
    blockToeplitzF k, symPrecondF k, nonsymPrecondF k, circInitF k, circMatmulF, symToepInitF k, symToepMatmulF,
    blockCircInitF k, blockCircMatmulF, blockToepInitF k, blockToepMatmulF, innerProdF, toeplitzCgF k, lengthOneF k,
    computeStatsF k, computeStats2F k, sqCosF k, baseMetricsF k, clampF .torch]

/-- C44: the results of these parts share no memory with arrays that existed before the call: changing a Toeplitz
matrix, an operator, a solution or a list of coefficients later changes no argument. -/
theorem C44_parts_fresh (k : Pkg) {F : Func} (hF : F ∈ freshParts k) {σ τ : State V}
    (h : Exec F.body σ τ true) : ∀ x ∈ F.rets, ∀ l, τ.env x = some l → σ.next ≤ l := by
  have hc : ∀ F ∈ freshParts k,
      ((check F.body []).map fun G => F.rets.all fun x => decide (x ∈ G)) = some true := by cases k <;> decide +kernel
  have h1 := hc F hF
  rw [Option.map_eq_some_iff] at h1
  obtain ⟨G, hG, hr⟩ := h1
  obtain ⟨-, _, h3⟩ := check_sound h σ.next [] G hG le_rfl (fun x hx => by cases hx)
  exact fun x hx l hl => h3 rfl x (of_decide_eq_true (List.all_eq_true.1 hr x hx)) l hl

/-! ### Concrete cases -/

/-- One execution: first branch of every choice, every loop run once, and every write done. -/
def run : Cmd → State ℕ → Option (State ℕ)
  | .skip, σ => some σ
  | .new x, σ => some ⟨Function.update σ.heap σ.next 0, σ.next + 1,
      Function.update σ.env x (some σ.next)⟩
  | .none x, σ => some ⟨σ.heap, σ.next, Function.update σ.env x Option.none⟩
  | .view x y, σ => some ⟨σ.heap, σ.next, Function.update σ.env x (σ.env y)⟩
  | .maybe x _, σ => some ⟨Function.update σ.heap σ.next 0, σ.next + 1,
      Function.update σ.env x (some σ.next)⟩
  | .write x, σ => (σ.env x).map fun l => ⟨Function.update σ.heap l (σ.heap l + 1), σ.next, σ.env⟩
  | .seq a b, σ => (run a σ).bind (run b)
  | .ite a _, σ => run a σ
  | .loop a, σ => run a σ
  | .call outs params body rets, σ =>
    (run body ⟨σ.heap, σ.next, bindParams σ.env params⟩).map fun τ =>
      ⟨τ.heap, τ.next, bindOuts σ.env τ.env outs rets⟩

theorem run_exec (c : Cmd) : ∀ (σ τ : State ℕ), run c σ = some τ → Exec c σ τ true := by
  induction c with
  | skip => exact fun σ τ h => by cases h; exact .skip σ
  | new x => exact fun σ τ h => by cases h; exact .new x σ 0
  | none x => exact fun σ τ h => by cases h; exact .none x σ
  | view x y => exact fun σ τ h => by cases h; exact .view x y σ
  | maybe x ys => exact fun σ τ h => by cases h; exact .maybeNew x ys σ 0
  | write x =>
    intro σ τ h
    simp only [run, Option.map_eq_some_iff] at h
    obtain ⟨l, hl, rfl⟩ := h
    exact .write x σ l hl _
  | seq a b iha ihb =>
    intro σ τ h
    simp only [run, Option.bind_eq_some_iff] at h
    obtain ⟨υ, h1, h2⟩ := h
    exact .seq (iha _ _ h1) (ihb _ _ h2)
  | ite a b iha _ => exact fun σ τ h => .iteLeft (iha _ _ h)
  | loop a iha => exact fun σ τ h => .loopStep (iha _ _ h) (.loopDone a τ)
  | call outs params body rets ih =>
    intro σ τ h
    simp only [run, Option.map_eq_some_iff] at h
    obtain ⟨υ, h1, rfl⟩ := h
    exact .call (ih _ _ h1)

/-- Two input arrays in buffers 0 and 1. -/
def start : State ℕ := ⟨fun _ => 7, 2, fun v => if v = .ref then some 0 else if v = .est then some 1
  else none⟩

/-- The functions have executions that finish and write into some array. -/
example (k : Pkg) (f : Fn) : ∃ τ, Exec (funcOf k f).body start τ true := by
  have h : (run (funcOf k f).body start).isSome := by
    cases k <;> cases f <;> decide +kernel
  obtain ⟨τ, hτ⟩ := Option.isSome_iff_exists.1 h
  exact ⟨τ, run_exec _ _ _ hτ⟩

/-- The matrix given to an assignment solver in buffer 0. -/
def startCost : State ℕ := ⟨fun _ => 7, 1, fun v => if v = .cost then some 0 else none⟩

/-- The assignment solvers have executions that finish. -/
example (k : Pkg) : (∃ τ, Exec hungarianF.body startCost τ true) ∧ ∃ τ, Exec (lsaInfF k).body startCost τ true := by
  have h : (run hungarianF.body startCost).isSome ∧ (run (lsaInfF k).body startCost).isSome := by
    cases k <;> decide +kernel
  obtain ⟨τ, hτ⟩ := Option.isSome_iff_exists.1 h.1
  obtain ⟨υ, hυ⟩ := Option.isSome_iff_exists.1 h.2
  exact ⟨⟨τ, run_exec _ _ _ hτ⟩, υ, run_exec _ _ _ hυ⟩

/-- The column given to `toeplitz` in buffer 0. -/
def startCol : State ℕ := ⟨fun _ => 7, 1, fun v => if v = .x then some 0 else none⟩

/-- `toeplitz` has an execution that finishes, with a result. -/
example (k : Pkg) : ∃ τ, Exec (toeplitzF k).body startCol τ true ∧ ∃ l, τ.env .T = some l ∧ startCol.next ≤ l := by
  have h : ((run (toeplitzF k).body startCol).bind fun τ => τ.env .T).isSome := by
    cases k <;> decide +kernel
  obtain ⟨l, hl⟩ := Option.isSome_iff_exists.1 h
  obtain ⟨τ, hτ, hl⟩ := Option.bind_eq_some_iff.1 hl
  refine ⟨τ, run_exec _ _ _ hτ, l, hl, ?_⟩
  exact C44_parts_fresh k (by simp [freshParts]) (run_exec _ _ _ hτ) .T (by cases k <;> simp [toeplitzF]) l hl

/-- A wrong `linear_sum_assignment`, that works on the matrix it is given. -/
example : ∃ τ, Exec (.seq (.view .C .cost) (.write .C)) startCost τ true ∧ τ.heap 0 ≠ startCost.heap 0 := by
  refine ⟨_, .seq (.view _ _ _) (.write _ _ 0 rfl 8), ?_⟩
  simp [startCost]

/-- A wrong `sdr_loss` for which the claim is false: loading the diagonal of (a view of) an input. -/
example : ∃ τ, Exec (.seq (.view .diag .ref) (.write .diag)) start τ true ∧
    τ.heap 0 ≠ start.heap 0 := by
  refine ⟨_, .seq (.view _ _ _) (.write _ _ 0 rfl 8), ?_⟩
  simp [start]

end FBE.Props
