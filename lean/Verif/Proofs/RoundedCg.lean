import Verif.Model.RoundedCg
import Verif.Proofs.RoundedStats
import Verif.Proofs.RoundedSi
import Verif.Proofs.CgContinuous

/-!
# Rounding errors of the iterative solver

Sequences of executions whose errors tend to zero: every computed quantity tends to the one of exact arithmetic.
-/

set_option linter.unusedSectionVars false

namespace FBE.Rounded

open Spec Matrix Filter Topology

local notation "conj" => starRingEnd ℂ

variable {ι : Type*} {l : Filter ι} {u : ι → ℝ} {n K r : ℕ}

/-! ### single operations -/

theorem tendsto_of_close {G : Type*} [SeminormedAddCommGroup G] {f g : ι → G} {b : ι → ℝ} {L : G} (h : ∀ m, ‖f m - g m‖ ≤ b m)
    (hb : Tendsto b l (𝓝 0)) (hg : Tendsto g l (𝓝 L)) : Tendsto f l (𝓝 L) := by
  have h1 : Tendsto (fun m => f m - g m) l (𝓝 0) := squeeze_zero_norm h hb
  simpa using h1.add hg

/-- A bound that is an error times something bounded. -/
theorem tendsto_zero_mul {a b : ι → ℝ} {L : ℝ} (ha : Tendsto a l (𝓝 0)) (hb : Tendsto b l (𝓝 L)) :
    Tendsto (fun m => a m * b m) l (𝓝 0) := by
  simpa using ha.mul hb

theorem op_tendsto (hu : Tendsto u l (𝓝 0)) {c x : ι → ℝ} {L : ℝ} (h : ∀ m, Op (u m) (c m) (x m)) (hx : Tendsto x l (𝓝 L)) :
    Tendsto c l (𝓝 L) :=
  tendsto_of_close (b := fun m => u m * |x m|) (fun m => h m) (tendsto_zero_mul hu hx.abs) hx

theorem isDot_tendsto {k : ι → ℕ} (hu0 : ∀ m, 0 ≤ u m) (hku : Tendsto (fun m => k m * u m) l (𝓝 0)) {a b : ι → Fin n → ℝ}
    {c : ι → ℝ} {a0 b0 : Fin n → ℝ} (h : ∀ m, IsDot (u m) (a m) (b m) (k m) Finset.univ (c m)) (ha : Tendsto a l (𝓝 a0))
    (hb : Tendsto b l (𝓝 b0)) : Tendsto c l (𝓝 (∑ t, a0 t * b0 t)) := by
  have ha' := tendsto_pi_nhds.1 ha
  have hb' := tendsto_pi_nhds.1 hb
  have h1 : Tendsto (fun m => ∑ t, a m t * b m t) l (𝓝 (∑ t, a0 t * b0 t)) :=
    tendsto_finsetSum _ fun t _ => (ha' t).mul (hb' t)
  have h2 : Tendsto (fun m => ∑ t, |a m t * b m t|) l (𝓝 (∑ t, |a0 t * b0 t|)) :=
    tendsto_finsetSum _ fun t _ => ((ha' t).mul (hb' t)).abs
  have h3 : Tendsto (fun m => c m - ∑ t, a m t * b m t) l (𝓝 0) := by
    have h4 : Tendsto (fun m => 1.01 * (k m * u m)) l (𝓝 0) := by simpa using hku.const_mul 1.01
    refine squeeze_zero_norm' ?_ (tendsto_zero_mul h4 h2)
    filter_upwards [hku.eventually_le_const (show (0 : ℝ) < 1 / 100 by norm_num)] with m hm
    exact (h m).err' (hu0 m) hm
  simpa using h3.add h1

/-! ### transforms -/

/-- All errors tend to zero. -/
structure Small (l : Filter ι) (u : ι → ℝ) (A : ι → Accuracy) (ω : ι → ℝ) : Prop where
  nonneg : ∀ m, 0 ≤ u m
  unit : Tendsto u l (𝓝 0)
  sums : Tendsto (fun m => (A m).k * u m) l (𝓝 0)
  fft : Tendsto (fun m => (A m).fft) l (𝓝 0)
  solve : Tendsto (fun m => (A m).solve) l (𝓝 0)
  weights : Tendsto ω l (𝓝 0)

variable {A : ι → Accuracy} {ω : ι → ℝ} (hS : Small l u A ω)
include hS

theorem tendsto_dft {x : ι → Fin K → ℝ} {x0 : Fin K → ℝ} (hx : Tendsto x l (𝓝 x0)) (f : ℕ) :
    Tendsto (fun m => dft n (zpad (x m)) f) l (𝓝 (dft n (zpad x0) f)) := by
  have hx' := tendsto_pi_nhds.1 hx
  unfold dft
  refine tendsto_finsetSum _ fun t _ => ?_
  refine ((Complex.continuous_ofReal.tendsto _).comp ?_).mul tendsto_const_nhds
  unfold zpad
  split
  · exact hx' _
  · exact tendsto_const_nhds

theorem rfft_tendsto {x : ι → Fin K → ℝ} {x0 : Fin K → ℝ} {X : ι → ℕ → ℂ} (h : ∀ m, IsRfft (A m) n (x m) (X m))
    (hx : Tendsto x l (𝓝 x0)) {f : ℕ} (hf : f ≤ n / 2) (hn : n ≠ 0) : Tendsto (fun m => X m f) l (𝓝 (dft n (zpad x0) f)) := by
  have hfn : f < n := by omega
  have hx' := tendsto_pi_nhds.1 hx
  have hb : Tendsto (fun m => (A m).fft * √(n * ∑ t, x m t ^ 2)) l (𝓝 0) := by
    refine tendsto_zero_mul (L := √(n * ∑ t, x0 t ^ 2)) hS.fft ?_
    exact ((tendsto_finsetSum _ fun t _ => (hx' t).pow 2).const_mul _).sqrt
  refine tendsto_of_close (fun m => ?_) hb (tendsto_dft hS hx f)
  have h1 := (Finset.single_le_sum (f := fun f => ‖allFreqs n (X m) f - allFreqs n (fun f => (rfft n (List.ofFn (x m))).getD f 0) f‖ ^ 2)
    (fun _ _ => sq_nonneg _) (Finset.mem_range.2 hfn)).trans (h m)
  rw [allFreqs_rfft n (x m) hfn] at h1
  have h2 : allFreqs n (X m) f = X m f := if_pos hf
  rw [h2] at h1
  refine le_of_sq_le_sq (h1.trans_eq ?_) (mul_nonneg (A m).fft_nonneg (Real.sqrt_nonneg _))
  rw [mul_pow, Real.sq_sqrt (by positivity)]

theorem mul_tendsto {X Y Z : ι → ℕ → ℂ} {f : ℕ} {x y : ℂ} (h : ∀ m, IsMul (u m) (X m) (Y m) (Z m))
    (hX : Tendsto (fun m => X m f) l (𝓝 x)) (hY : Tendsto (fun m => Y m f) l (𝓝 y)) : Tendsto (fun m => Z m f) l (𝓝 (x * y)) := by
  have h4 : Tendsto (fun m => 4 * u m) l (𝓝 0) := by simpa using hS.unit.const_mul 4
  exact tendsto_of_close (fun m => h m f) (tendsto_zero_mul h4 (hX.norm.mul hY.norm)) (hX.mul hY)

theorem allFreqs_tendsto {Z : ι → ℕ → ℂ} {Z0 : ℕ → ℂ} (hZ : ∀ f ≤ n / 2, Tendsto (fun m => Z m f) l (𝓝 (Z0 f))) {f : ℕ} (hf : f < n) :
    Tendsto (fun m => allFreqs n (Z m) f) l (𝓝 (allFreqs n Z0 f)) := by
  unfold allFreqs
  split
  · exact hZ f (by assumption)
  · exact (Complex.continuous_conj.tendsto _).comp (hZ (n - f) (by omega))

theorem irfft_tendsto {Z : ι → ℕ → ℂ} {Z0 : ℕ → ℂ} {z : ι → ℕ → ℝ} (h : ∀ m, IsIrfft (A m) n (Z m) (z m))
    (hZ : ∀ f ≤ n / 2, Tendsto (fun m => Z m f) l (𝓝 (Z0 f))) {t : ℕ} (ht : t < n) :
    Tendsto (fun m => z m t) l (𝓝 ((irfft n ((List.range (n / 2 + 1)).map Z0)).getD t 0)) := by
  have ha := fun f (hf : f ∈ Finset.range n) => allFreqs_tendsto hS hZ (Finset.mem_range.1 hf)
  refine tendsto_of_close (fun m => h m t ht) (tendsto_zero_mul hS.fft
    ((tendsto_finsetSum _ fun f hf => (ha f hf).norm).div_const _)) ?_
  simp only [irfft_allFreqs n _ ht]
  exact (tendsto_finsetSum _ fun f hf => (Complex.continuous_re.tendsto _).comp ((ha f hf).mul tendsto_const_nhds)).div_const _

/-! ### the loop -/

section loop

variable {J : Type} [Fintype J]

/-- Computed operators that tend to an operator. -/
def OpTends (l : Filter ι) (F : ι → (J → ℝ) → (J → ℝ) → Prop) (M : (J → ℝ) → J → ℝ) : Prop :=
  ∀ (v z : ι → J → ℝ) (v0 : J → ℝ), (∀ m, F m (v m) (z m)) → Tendsto v l (𝓝 v0) → Tendsto z l (𝓝 (M v0))

/-- All variables of the loop tend to those of another state. -/
structure StTends (l : Filter ι) (st : ι → CgState J) (s : CgState J) : Prop where
  x : Tendsto (fun m => (st m).x) l (𝓝 s.x)
  r : Tendsto (fun m => (st m).r) l (𝓝 s.r)
  p : Tendsto (fun m => (st m).p) l (𝓝 s.p)
  rsold : Tendsto (fun m => (st m).rsold) l (𝓝 s.rsold)

theorem inner_tendsto {σ : Fin n ≃ J} {a b : ι → J → ℝ} {c : ι → ℝ} {a0 b0 : J → ℝ}
    (h : ∀ m, IsInner (u m) (A m).k σ (a m) (b m) (c m)) (ha : Tendsto a l (𝓝 a0)) (hb : Tendsto b l (𝓝 b0)) :
    Tendsto c l (𝓝 (innerProd a0 b0)) := by
  have h1 := isDot_tendsto hS.nonneg hS.sums h (a0 := fun i => a0 (σ i)) (b0 := fun i => b0 (σ i))
    (tendsto_pi_nhds.2 fun i => tendsto_pi_nhds.1 ha _) (tendsto_pi_nhds.2 fun i => tendsto_pi_nhds.1 hb _)
  rw [Equiv.sum_comp σ fun i => a0 i * b0 i] at h1
  exact h1

theorem ops_tendsto {c x : ι → J → ℝ} {x0 : J → ℝ} (h : ∀ m i, Op (u m) (c m i) (x m i)) (hx : Tendsto x l (𝓝 x0)) :
    Tendsto c l (𝓝 x0) :=
  tendsto_pi_nhds.2 fun i => op_tendsto hS.unit (fun m => h m i) (tendsto_pi_nhds.1 hx i)

/-- `rsold / clamp(pAp, min=1e-6)` -/
theorem quotient_tendsto {a q d c : ι → ℝ} {a0 q0 : ℝ} (h : ∀ m, Op (u m) (c m) (a m / max (q m) (d m)))
    (hd : ∀ m, Op (u m) (d m) 1e-6) (ha : Tendsto a l (𝓝 a0)) (hq : Tendsto q l (𝓝 q0)) : Tendsto c l (𝓝 (a0 / max q0 1e-6)) := by
  have hd' := op_tendsto hS.unit hd tendsto_const_nhds
  exact op_tendsto hS.unit h (ha.div (hq.max hd') (lt_max_of_lt_right (by norm_num)).ne')

/-- `x + alpha * p` -/
theorem axpy_tendsto {a : ι → ℝ} {x y z : ι → J → ℝ} {a0 : ℝ} {x0 y0 : J → ℝ}
    (h : ∀ m i, ∃ q, Op (u m) q (a m * y m i) ∧ Op (u m) (z m i) (x m i + q)) (ha : Tendsto a l (𝓝 a0)) (hx : Tendsto x l (𝓝 x0))
    (hy : Tendsto y l (𝓝 y0)) : Tendsto z l (𝓝 (x0 + a0 • y0)) := by
  choose q h1 h2 using h
  refine tendsto_pi_nhds.2 fun i => ?_
  have hq := op_tendsto hS.unit (fun m => h1 m i) (ha.mul (tendsto_pi_nhds.1 hy i))
  exact op_tendsto hS.unit (fun m => h2 m i) ((tendsto_pi_nhds.1 hx i).add hq)

theorem axmy_tendsto {a : ι → ℝ} {x y z : ι → J → ℝ} {a0 : ℝ} {x0 y0 : J → ℝ}
    (h : ∀ m i, ∃ q, Op (u m) q (a m * y m i) ∧ Op (u m) (z m i) (x m i - q)) (ha : Tendsto a l (𝓝 a0)) (hx : Tendsto x l (𝓝 x0))
    (hy : Tendsto y l (𝓝 y0)) : Tendsto z l (𝓝 (x0 - a0 • y0)) := by
  choose q h1 h2 using h
  refine tendsto_pi_nhds.2 fun i => ?_
  have hq := op_tendsto hS.unit (fun m => h1 m i) (ha.mul (tendsto_pi_nhds.1 hy i))
  exact op_tendsto hS.unit (fun m => h2 m i) ((tendsto_pi_nhds.1 hx i).sub hq)

variable {fwd pre : ι → (J → ℝ) → (J → ℝ) → Prop} {M P : (J → ℝ) → J → ℝ} (hf : OpTends l fwd M) (hp : OpTends l pre P)
  {σ : Fin n ≃ J} {b : ι → J → ℝ} {b0 : J → ℝ} (hb : Tendsto b l (𝓝 b0))
include hf hp hb

theorem cgInit_tends {x0 : ι → J → ℝ} {y0 : J → ℝ} (hx : Tendsto x0 l (𝓝 y0)) {st : ι → CgState J}
    (h : ∀ m, IsCgInit (u m) (A m).k σ (fwd m) (pre m) (b m) (x0 m) (st m)) : StTends l st (cgInit M P b0 y0) := by
  choose h1 h2 h3 h4 using h
  choose a h5 h6 using h2
  have ha := hf _ _ _ h5 hx
  have hr : Tendsto (fun m => (st m).r) l (𝓝 (b0 - M y0)) := ops_tendsto hS h6 (hb.sub ha)
  have hz := hp _ _ _ h3 hr
  exact ⟨(tendsto_congr h1).2 hx, hr, hz, inner_tendsto hS h4 hr hz⟩

theorem cgBody_tends {epoch : ℕ} {st st' : ι → CgState J} {s : CgState J} (hs : StTends l st s)
    (h : ∀ m, IsCgBody (u m) (A m).k σ (fwd m) (pre m) (b m) epoch (st m) (st' m)) : StTends l st' (cgBody M P b0 s epoch) := by
  choose Ap pAp d alpha z d' beta h1 h2 h3 h4 h5 h6 h7 h8 h9 h10 h11 using h
  have hAp := hf _ _ _ h1 hs.p
  have hpAp := inner_tendsto hS h2 hs.p hAp
  have halpha := quotient_tendsto hS h4 h3 hs.rsold hpAp
  have hx := axpy_tendsto hS h5 halpha hs.x hs.p
  have hr : Tendsto (fun m => (st' m).r) l (𝓝 (cgBody M P b0 s epoch).r) := by
    unfold cgBody
    dsimp only
    split
    · rename_i he
      simp only [if_pos he] at h6
      choose a h12 h13 using h6
      exact ops_tendsto hS h13 (hb.sub (hf _ _ _ h12 hx))
    · rename_i he
      simp only [if_neg he] at h6
      exact axmy_tendsto hS h6 halpha hs.r hAp
  have hz := hp _ _ _ h7 hr
  have hrs := inner_tendsto hS h8 hr hz
  have hbeta := quotient_tendsto hS h10 h9 hrs hs.rsold
  exact ⟨hx, hr, axpy_tendsto hS h11 hbeta hz hs.p, hrs⟩

/-- The computed iterates tend to those of exact arithmetic. -/
theorem cg_tends {x0 : ι → J → ℝ} {y0 : J → ℝ} (hx : Tendsto x0 l (𝓝 y0)) {it : ℕ} {x : ι → J → ℝ}
    (h : ∀ m, IsCg (u m) (A m).k σ (fwd m) (pre m) (b m) (x0 m) it (x m)) :
    Tendsto x l (𝓝 (conjugateGradient M P b0 y0 it)) := by
  choose st h1 h2 h3 using h
  have key : ∀ e ≤ it, StTends l (fun m => st m e) (cgRun M P b0 y0 e) := by
    intro e
    induction e with
    | zero => exact fun _ => cgInit_tends hS hf hp hb hx h1
    | succ e ih =>
      intro he
      have := cgBody_tends hS hf hp hb (ih (by omega)) fun m => h2 m e (by omega)
      simpa only [cgRun, List.range_succ, List.foldl_append, List.foldl_cons, List.foldl_nil] using this
  rw [show x = fun m => (st m it).x from funext h3]
  exact (key it le_rfl).x

end loop

/-! ### the operators of one filter -/

omit hS in
theorem dft_zpad_fin (y : ℕ → ℝ) (f : ℕ) : dft n (zpad fun t : Fin n => y t) f = dft n y f := by
  unfold dft
  refine Finset.sum_congr rfl fun t ht => ?_
  unfold zpad
  rw [dif_pos (Finset.mem_range.1 ht)]

theorem symForward_tends {B : Backend} (hB : Covered B) (hK : 0 < K) {col : ι → ℕ → ℝ} {col0 : List ℝ} (hlen : col0.length = K)
    (hcol : ∀ t < K, Tendsto (fun m => col m t) l (𝓝 (col0.getD t 0))) {C : ι → ℕ → ℂ}
    (hC : ∀ m, IsRfft (A m) (2 * K) (flSymCirc K (col m)) (C m)) :
    OpTends l (fun m => IsSymForward (u m) (A m) K (C m)) (symToeplitzOp B K col0) := by
  intro v z v0 h hv
  choose Y Z y h1 h2 h3 h4 using h
  have hcirc : Tendsto (fun m => flSymCirc K (col m)) l (𝓝 fun t : Fin (2 * K) => (symCircCol B K col0).getD t 0) := by
    refine tendsto_pi_nhds.2 fun t => ?_
    rw [symCircCol_get hB hlen t.isLt]
    unfold flSymCirc
    split
    · exact hcol _ (by assumption)
    · split
      · exact tendsto_const_nhds
      · exact hcol _ (by omega)
  have hZ : ∀ f ≤ 2 * K / 2, Tendsto (fun m => Z m f) l
      (𝓝 (dft (2 * K) (zpad v0) f * dft (2 * K) (fun t => (symCircCol B K col0).getD t 0) f)) := fun f hf => by
    have hCf := rfft_tendsto hS hC hcirc hf (by omega)
    rw [dft_zpad_fin fun t => (symCircCol B K col0).getD t 0] at hCf
    exact mul_tendsto hS h2 (rfft_tendsto hS h1 hv hf (by omega)) hCf
  refine tendsto_pi_nhds.2 fun i => ?_
  have hi := i.isLt
  have := irfft_tendsto hS h3 hZ (t := i) (by omega)
  simp only [h4]
  convert this using 2
  unfold symToeplitzOp vec
  rw [length_symCircCol hB hlen hK, pySlice_take, getD_take _ _ _ _ hi, rfft_eq, rfft_eq, zipWith_map_range]
  simp only [getD_ofFn]

theorem symColumn_tends {w w' : ι → ℕ → ℝ} (hw : ∀ m, IsWeights (ω m) K (w m) (w' m)) {col : ι → ℕ → ℝ} {col0 : List ℝ}
    (hlen : col0.length = K) (hcol : ∀ t < K, Tendsto (fun m => col m t) l (𝓝 (col0.getD t 0))) {c : ι → Fin K → ℝ}
    (h : ∀ m, IsSymColumn (u m) K (w m) (col m) (c m)) :
    Tendsto c l (𝓝 fun t : Fin K => (symPrecondCol col0).getD t 0) := by
  choose q h1 h2 using h
  refine tendsto_pi_nhds.2 fun t => ?_
  have ht := t.isLt
  have hw' : ∀ s, 0 < s → s < K → Tendsto (fun m => w m s) l (𝓝 (s / K)) := fun s h0 hs =>
    tendsto_of_close (fun m => (hw m s h0 hs).1) hS.weights tendsto_const_nhds
  by_cases h0 : t.val = 0
  · simp only [h0, symPrecondCol_zero hlen (by omega : 0 < K)] at h2 ⊢
    have := hcol 0 (by omega)
    refine this.congr fun m => ?_
    have := h2 m t
    rw [if_pos h0] at this
    exact this.symm
  · have hq : ∀ i, i < K - 1 → Tendsto (fun m => q m i) l (𝓝 (col0.getD (i + 1) 0 * ((K - 1 - i : ℕ) / K))) := fun i hi =>
      op_tendsto hS.unit (fun m => h1 m i hi) ((hcol _ (by omega)).mul (hw' _ (by omega) (by omega)))
    have h3 : ∀ m, Op (u m) (c m t) (q m (t - 1) + q m (K - 1 - t)) := fun m => by
      have := h2 m t
      rwa [if_neg h0] at this
    have h4 := op_tendsto hS.unit h3 ((hq (t - 1) (by omega)).add (hq (K - 1 - t) (by omega)))
    convert h4 using 2
    rw [symPrecondCol_get hlen (by omega) ht, show t.val - 1 + 1 = t by omega, show K - 1 - t + 1 = K - t by omega,
      show K - 1 - (t - 1) = K - t by omega, show K - 1 - (K - 1 - t) = t by omega]
    ring

theorem specInv_tends {B : Backend} (hB : Covered B) {S P : ι → ℕ → ℂ} {f : ℕ} {s : ℂ} (h : ∀ m, IsSpecInv (u m) (S m) (P m))
    (hs : Tendsto (fun m => S m f) l (𝓝 s)) : Tendsto (fun m => P m f) l (𝓝 (B.specInv s)) := by
  choose q d h1 h2 h3 using fun m => h m f
  have h4 : Tendsto (fun m => 4 * u m) l (𝓝 0) := by simpa using hS.unit.const_mul 4
  have hre := (Complex.continuous_re.tendsto s).comp hs
  have him := (Complex.continuous_im.tendsto s).comp hs
  have hq : Tendsto q l (𝓝 (s.re ^ 2 + s.im ^ 2)) :=
    tendsto_of_close (fun m => h1 m) (tendsto_zero_mul h4 ((hre.pow 2).add (him.pow 2))) ((hre.pow 2).add (him.pow 2))
  have hm := hq.max (op_tendsto hS.unit h2 tendsto_const_nhds)
  have hpos : max (s.re ^ 2 + s.im ^ 2) 1e-6 ≠ 0 := (lt_max_of_lt_right (by norm_num)).ne'
  rw [hB.specInv]
  refine tendsto_of_close h3 (tendsto_zero_mul h4 (hs.norm.div hm hpos)) ?_
  exact ((Complex.continuous_conj.tendsto _).comp hs).div ((Complex.continuous_ofReal.tendsto _).comp hm) (by exact_mod_cast hpos)

theorem circPrecond_tends {B : Backend} (hB : Covered B) (hK : 0 < K) {col0 : List ℝ} (hlen : col0.length = K) {c : ι → Fin K → ℝ}
    (hc : Tendsto c l (𝓝 fun t : Fin K => (symPrecondCol col0).getD t 0)) {S P : ι → ℕ → ℂ} (hR : ∀ m, IsRfft (A m) K (c m) (S m))
    (hP : ∀ m, IsSpecInv (u m) (S m) (P m)) :
    OpTends l (fun m => IsCircPrecond (u m) (A m) K (P m)) (circPrecond B K col0) := by
  intro v z v0 h hv
  choose Y Z y h1 h2 h3 h4 using h
  have hZ : ∀ f ≤ K / 2, Tendsto (fun m => Z m f) l (𝓝 (B.specInv (symSpec K col0 f) * dft K (zpad v0) f)) := fun f hf => by
    have hSf := rfft_tendsto hS hR hc hf (by omega)
    rw [dft_zpad_fin fun t => (symPrecondCol col0).getD t 0] at hSf
    exact mul_tendsto hS h2 (specInv_tends hS hB hP hSf) (rfft_tendsto hS h1 hv hf (by omega))
  refine tendsto_pi_nhds.2 fun i => ?_
  have := irfft_tendsto hS h3 hZ i.isLt
  simp only [h4]
  convert this using 2
  unfold circPrecond vec
  rw [rfft_eq, rfft_eq, List.map_map, zipWith_map_range]
  simp only [getD_ofFn]
  rfl

/-- `toeplitz_conjugate_gradient` -/
theorem toeplitzCg_tends {B : Backend} (hB : Covered B) (hK : 0 < K) {col : ι → ℕ → ℝ} {col0 : List ℝ} (hlen : col0.length = K)
    (hcol : ∀ t < K, Tendsto (fun m => col m t) l (𝓝 (col0.getD t 0))) {b : ι → Fin K → ℝ} {b0 : Fin K → ℝ}
    (hb : Tendsto b l (𝓝 b0)) {it : ℕ} {x : ι → Fin K → ℝ} (h : ∀ m, IsToeplitzCg (u m) (A m) (ω m) K (col m) (b m) it (x m)) :
    Tendsto x l (𝓝 (toeplitzCg B K col0 b0 it)) := by
  choose w w' c S P C h1 h2 h3 h4 h5 h6 using h
  exact cg_tends hS (symForward_tends hS hB hK hlen hcol h5)
    (circPrecond_tends hS hB hK hlen (symColumn_tends hS h1 hlen hcol h2) h3 h4) hb tendsto_const_nhds h6

/-! ### the operators of the block system -/

theorem matMul_tends {P : ι → Fin r → Fin r → ℕ → ℂ} {Y Z : ι → Fin r → ℕ → ℂ} {f : ℕ} {P0 : Fin r → Fin r → ℂ} {Y0 : Fin r → ℂ}
    (h : ∀ m, IsMatMul (u m) (A m).k (P m) (Y m) (Z m)) (hP : ∀ c d, Tendsto (fun m => P m c d f) l (𝓝 (P0 c d)))
    (hY : ∀ d, Tendsto (fun m => Y m d f) l (𝓝 (Y0 d))) (c : Fin r) : Tendsto (fun m => Z m c f) l (𝓝 (∑ d, P0 c d * Y0 d)) := by
  have h4 : Tendsto (fun m => 8 * ((A m).k + 4) * u m) l (𝓝 0) := by
    have := (hS.sums.add (hS.unit.const_mul 4)).const_mul 8
    simp only [mul_zero, add_zero] at this
    exact this.congr fun m => by ring
  exact tendsto_of_close (fun m => h m c f)
    (tendsto_zero_mul h4 (tendsto_finsetSum _ fun d _ => (hP c d).norm.mul (hY d).norm))
    (tendsto_finsetSum _ fun d _ => (hP c d).mul (hY d))

theorem blockApply_tends (hKn : K ≤ n) {P : ι → Fin r → Fin r → ℕ → ℂ} {P0 : Fin r → Fin r → ℕ → ℂ}
    (hP : ∀ c d, ∀ f ≤ n / 2, Tendsto (fun m => P m c d f) l (𝓝 (P0 c d f))) :
    OpTends l (fun m => IsBlockApply (u m) (A m) n K (P m)) fun v a => (irfft n ((List.range (n / 2 + 1)).map fun f =>
      ∑ d, P0 a.2 d f * dft n (zpad fun l => v (l, d)) f)).getD a.1 0 := by
  intro v z v0 h hv
  choose Y Z y h1 h2 h3 h4 using h
  have hv' := tendsto_pi_nhds.1 hv
  refine tendsto_pi_nhds.2 fun a => ?_
  have ha := a.1.isLt
  simp only [h4]
  refine irfft_tendsto hS (fun m => h3 m a.2) (fun f hf => ?_) (t := a.1) (by omega)
  exact matMul_tends hS h2 (fun c d => hP c d f hf)
    (fun d => rfft_tendsto hS (fun m => h1 m d) (tendsto_pi_nhds.2 fun i => hv' (i, d)) hf (by omega)) a.2

theorem inverse_tends {M R : ι → Matrix (Fin r) (Fin r) ℂ} {M0 : Matrix (Fin r) (Fin r) ℂ} (h : ∀ m, IsInverse (A m) (M m) (R m))
    (hM : ∀ a b, Tendsto (fun m => M m a b) l (𝓝 (M0 a b))) (hdet : M0.det ≠ 0) (i j : Fin r) :
    Tendsto (fun m => R m i j) l (𝓝 (M0⁻¹ i j)) := by
  choose D h1 h2 using fun m => h m j
  have hD : ∀ a b, Tendsto (fun m => D m a b) l (𝓝 0) := fun a b => by
    have hb : Tendsto (fun m => ∑ q : Fin r × Fin r, ‖M m q.1 q.2‖) l (𝓝 (∑ q : Fin r × Fin r, ‖M0 q.1 q.2‖)) :=
      tendsto_finsetSum _ fun q _ => (hM q.1 q.2).norm
    refine squeeze_zero_norm (fun m => h2 m _ (fun a b => ?_) a b) (tendsto_zero_mul hS.solve hb)
    exact Finset.single_le_sum (f := fun q : Fin r × Fin r => ‖M m q.1 q.2‖) (fun _ _ => norm_nonneg _) (Finset.mem_univ (a, b))
  have hMD : Tendsto (fun m => M m + D m) l (𝓝 M0) :=
    tendsto_pi_nhds.2 fun a => tendsto_pi_nhds.2 fun b => by simpa using (hM a b).add (hD a b)
  have hdets : Tendsto (fun m => (M m + D m).det) l (𝓝 M0.det) := (continuous_id.matrix_det.tendsto M0).comp hMD
  have hinv : Tendsto (fun m => (M m + D m)⁻¹ i j) l (𝓝 (M0⁻¹ i j)) := by
    simp only [Matrix.inv_def, Matrix.smul_apply, Ring.inverse_eq_inv', smul_eq_mul]
    refine (hdets.inv₀ hdet).mul ?_
    exact tendsto_pi_nhds.1 (tendsto_pi_nhds.1 ((continuous_id.matrix_adjugate.tendsto M0).comp hMD) i) j
  refine hinv.congr' ?_
  filter_upwards [hdets.eventually_ne hdet] with m hm
  have h3 : (M m + D m)⁻¹ *ᵥ ((M m + D m) *ᵥ fun i => R m i j) = (M m + D m)⁻¹ *ᵥ Pi.single j 1 := by rw [h1]
  rw [mulVec_mulVec, nonsing_inv_mul _ (isUnit_iff_ne_zero.2 hm), one_mulVec] at h3
  have := congrFun h3 i
  rw [this]
  simp

section block

variable {B : Backend} (hB : Covered B) (hK : 2 ≤ K) {N : ℕ} {acf : ι → Fin r → Fin r → ℕ → ℝ} {acf0 : Fin r → Fin r → List ℝ}
  (hlen : ∀ c d, (acf0 c d).length = K + K) (hpos : ∀ c d, ∀ t < K, Tendsto (fun m => acf m c d t) l (𝓝 ((acf0 c d).getD t 0)))
  (hneg : ∀ c d t, 0 < t → t < K → Tendsto (fun m => acf m c d (N - t)) l (𝓝 ((acf0 c d).getD (K + K - t) 0)))
include hB hK hlen hpos hneg

theorem nonsymColumn_tends {w w' : ι → ℕ → ℝ} (hw : ∀ m, IsWeights (ω m) K (w m) (w' m)) {c d : Fin r} {col : ι → Fin K → ℝ}
    (h : ∀ m, IsNonsymColumn (u m) N K (w m) (w' m) (acf m c d) (col m)) :
    Tendsto col l (𝓝 fun t : Fin K => (nonsymPrecondCol B (acf0 c d)).getD t 0) := by
  refine tendsto_pi_nhds.2 fun t => ?_
  have ht := t.isLt
  by_cases h0 : t.val = 0
  · simp only [h0, nonsymPrecondCol_zero hK (hlen c d)]
    refine (hpos c d 0 (by omega)).congr fun m => ?_
    have := h m t
    rw [if_pos h0] at this
    exact this.symm
  · have h1 : ∀ m, ∃ a b, Op (u m) a (w m t * acf m c d (K - t)) ∧ Op (u m) b (w' m t * acf m c d (N - t)) ∧
        Op (u m) (col m t) (a + b) := fun m => by
      have := h m t
      rwa [if_neg h0] at this
    choose a b h2 h3 h4 using h1
    have hw1 : Tendsto (fun m => w m t) l (𝓝 (t / K)) :=
      tendsto_of_close (fun m => (hw m t (by omega) ht).1) hS.weights tendsto_const_nhds
    have hw2 : Tendsto (fun m => w' m t) l (𝓝 (1 - t / K)) :=
      tendsto_of_close (fun m => (hw m t (by omega) ht).2) hS.weights tendsto_const_nhds
    have h5 := op_tendsto hS.unit h4 ((op_tendsto hS.unit h2 (hw1.mul (hpos c d (K - t) (by omega)))).add
      (op_tendsto hS.unit h3 (hw2.mul (hneg c d t (by omega) ht))))
    convert h5 using 2
    rw [nonsymPrecondCol_get hB hK (hlen c d) (by omega) ht]
    have hK' : (K : ℝ) ≠ 0 := by
      have : K ≠ 0 := by omega
      exact_mod_cast this
    rw [Nat.cast_sub ht.le]
    field_simp
    ring

theorem blockForward_tends {C : ι → Fin r → Fin r → ℕ → ℂ}
    (hC : ∀ m c d, IsRfft (A m) (blockNfft K) (flBlockCirc N K (acf m c d)) (C m c d)) :
    OpTends l (fun m => IsBlockApply (u m) (A m) (blockNfft K) K (C m)) (blockToeplitzOp B K acf0) := by
  have hge := blockNfft_ge K
  have hcirc : ∀ c d, Tendsto (fun m => flBlockCirc N K (acf m c d)) l
      (𝓝 fun t : Fin (blockNfft K) => (blockCircCol B K (acf0 c d)).getD t 0) := fun c d => by
    refine tendsto_pi_nhds.2 fun t => ?_
    have ht := t.isLt
    rw [blockCircCol_get hB hK (hlen c d) ht]
    unfold flBlockCirc
    split
    · exact hpos c d 0 (by omega)
    · split
      · exact hneg c d t (by omega) (by assumption)
      · split
        · exact tendsto_const_nhds
        · exact hpos c d _ (by omega)
  have h := blockApply_tends hS (by omega : K ≤ blockNfft K) (P := C)
    (P0 := fun c d f => dft (blockNfft K) (fun t => (blockCircCol B K (acf0 c d)).getD t 0) f) fun c d f hf => by
      have := rfft_tendsto hS (fun m => hC m c d) (hcirc c d) hf (by omega)
      rwa [dft_zpad_fin fun t => (blockCircCol B K (acf0 c d)).getD t 0] at this
  convert h using 1
  funext v a
  unfold blockToeplitzOp vec
  rw [pySlice_take, getD_take _ _ _ _ a.1.isLt]
  congr 2
  refine List.map_congr_left fun k hk => Finset.sum_congr rfl fun d _ => ?_
  rw [List.mem_range] at hk
  rw [length_blockCircCol hB hK (hlen _ _), rfft_getD _ _ (by omega), rfft_getD _ _ (by omega)]
  unfold lagCol
  simp only [getD_ofFn]

theorem blockPrecond_tends {w w' : ι → ℕ → ℝ} (hw : ∀ m, IsWeights (ω m) K (w m) (w' m)) {col : ι → Fin r → Fin r → Fin K → ℝ}
    (hcol : ∀ m c d, IsNonsymColumn (u m) N K (w m) (w' m) (acf m c d) (col m c d)) {S P : ι → Fin r → Fin r → ℕ → ℂ}
    (hR : ∀ m c d, IsRfft (A m) K (col m c d) (S m c d))
    (hP : ∀ m, ∀ f ≤ K / 2, IsInverse (A m) (fun c d => S m c d f) fun c d => P m c d f)
    (hdet : ∀ f ≤ K / 2, (blockPrecondSpec B acf0 f).det ≠ 0) :
    OpTends l (fun m => IsBlockApply (u m) (A m) K K (P m)) (blockPrecond B K acf0) := by
  have h := blockApply_tends hS le_rfl (P := P) (P0 := fun c d f => (blockPrecondSpec B acf0 f)⁻¹ c d) fun c d f hf => by
    refine inverse_tends hS (fun m => hP m f hf) (fun a b => ?_) (hdet f hf) c d
    have h1 := rfft_tendsto hS (fun m => hR m a b) (nonsymColumn_tends hS hB hK hlen hpos hneg hw fun m => hcol m a b) hf (by omega)
    rw [dft_zpad_fin fun t => (nonsymPrecondCol B (acf0 a b)).getD t 0] at h1
    rw [blockPrecondSpec_eq hB hK hlen hf]
    exact h1
  convert h using 1
  funext v a
  unfold blockPrecond vec
  congr 2
  refine List.map_congr_left fun k hk => Finset.sum_congr rfl fun d _ => ?_
  rw [List.mem_range] at hk
  rw [rfft_getD _ _ (by omega)]
  unfold lagCol
  simp only [getD_ofFn]

/-- `block_toeplitz_conjugate_gradient` -/
theorem blockCg_tends (hdet : ∀ f ≤ K / 2, (blockPrecondSpec B acf0 f).det ≠ 0) {b x0 : ι → Fin K × Fin r → ℝ}
    {b0 y0 : Fin K × Fin r → ℝ} (hb : Tendsto b l (𝓝 b0)) (hx : Tendsto x0 l (𝓝 y0)) {it : ℕ} {x : ι → Fin K × Fin r → ℝ}
    (h : ∀ m, IsBlockCg (u m) (A m) (ω m) N K (acf m) (b m) (x0 m) it (x m)) :
    Tendsto x l (𝓝 (conjugateGradient (blockToeplitzOp B K acf0) (blockPrecond B K acf0) b0 y0 it)) := by
  choose w w' c S P C h1 h2 h3 h4 h5 h6 using h
  exact cg_tends hS (blockForward_tends hS hB hK hlen hpos hneg h5)
    (blockPrecond_tends hS hB hK hlen hpos hneg h1 h2 h3 h4 hdet) hb hx h6

end block

end FBE.Rounded
