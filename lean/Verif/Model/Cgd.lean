import Verif.Model.Fft
import Verif.Model.Linalg

/-!
# Model of `cgd.py` (both packages): circulant preconditioners, FFT operators, conjugate gradient

Every column of a right-hand side is processed independently by the code (all operations are
elementwise over the columns); the model treats one column.
-/

namespace FBE

open Classical Matrix

/-! ### preconditioner columns -/

/-- numpy/cgd.py:28-40, torch/cgd.py:29-41, `optimal_symmetric_circulant_precond_column`. -/
noncomputable def symPrecondCol (col : List ℝ) : List ℝ :=
  let n := col.length
  -- np.arange(1, n) / n
  let b : List ℝ := (List.range (n - 1)).map fun i : ℕ => ((i : ℝ) + 1) / n
  let w := List.zipWith (· * ·) (pySlice col (some 1) none) b.reverse
  pySlice col none (some 1) ++ List.zipWith (· + ·) w w.reverse

/-- numpy/cgd.py:43-77, torch/cgd.py:44-80, `optimal_nonsymmetric_circulant_precond_column` (the
axis is the lag axis); `n = (len + 1) // 2` when not given, as in all calls. -/
noncomputable def nonsymPrecondCol (B : Backend) (r : List ℝ) : List ℝ :=
  let n := (r.length + 1) / 2
  let b : List ℝ := (List.range (n - 1)).map fun i : ℕ => ((i : ℝ) + 1) / n
  let s1 := B.revMid n r
  let s2 := B.revLast n r
  let w := List.zipWith (· + ·) (List.zipWith (· * ·) b s1)
    (List.zipWith (· * ·) (b.map fun x => 1 - x) s2)
  pySlice r none (some 1) ++ w

/-! ### operators -/

/-- numpy/cgd.py:80-116, torch/cgd.py:83-124, `CirculantPreconditionerOperator(col) @ v`. -/
noncomputable def circPrecond (B : Backend) (n : ℕ) (col : List ℝ) (v : Fin n → ℝ) : Fin n → ℝ :=
  let C := (rfft n (symPrecondCol col)).map B.specInv
  vec n (irfft n (List.zipWith (· * ·) C (rfft n (List.ofFn v))))

/-- `circ_col` of numpy/cgd.py:129-131, torch/cgd.py:137-139 (`pad_len = n_fft - 2 * n_col + 1 = 1`). -/
noncomputable def symCircCol (B : Backend) (n : ℕ) (col : List ℝ) : List ℝ :=
  col ++ List.replicate (2 * n - 2 * n + 1) 0 ++ B.revTail col

/-- numpy/cgd.py:119-157, torch/cgd.py:127-165, `SymmetricToeplitzOperator(col) @ v`. -/
noncomputable def symToeplitzOp (B : Backend) (n : ℕ) (col : List ℝ) (v : Fin n → ℝ) : Fin n → ℝ :=
  let nfft := 2 * n
  let circ := symCircCol B n col
  let C := rfft circ.length circ
  let Y := rfft nfft (List.ofFn v)
  vec n (pySlice (irfft nfft (List.zipWith (· * ·) Y C)) none (some n))

/-- `C` of numpy/cgd.py:170-173, torch/cgd.py:178-181 at frequency `k`. -/
noncomputable def blockPrecondSpec {c : ℕ} (B : Backend) (acf : Fin c → Fin c → List ℝ) (k : ℕ) :
    Matrix (Fin c) (Fin c) ℂ :=
  fun r d => (rfft (nonsymPrecondCol B (acf r d)).length (nonsymPrecondCol B (acf r d))).getD k 0

/-- Column of block `r` (or `c`) of a flattened `(lag, channel)` vector, as a list over lags.
numpy/cgd.py:199, 268, torch/cgd.py:207, 276 (`reshape` of the right-hand side). -/
def lagCol {n c : ℕ} (v : Fin n × Fin c → ℝ) (d : Fin c) : List ℝ := List.ofFn fun l => v (l, d)

/-- numpy/cgd.py:160-205, torch/cgd.py:168-213, `BlockCirculantPreconditionerOperator(acf) @ v`:
multiplication with the inverse of `C` at every frequency.  `n` is the size of `col_precond`.
(A singular `C` raises `LinAlgError` in the constructor, see `blockCg`.) -/
noncomputable def blockPrecond {c : ℕ} (B : Backend) (n : ℕ) (acf : Fin c → Fin c → List ℝ)
    (v : Fin n × Fin c → ℝ) : Fin n × Fin c → ℝ :=
  fun p => vec n (irfft n ((List.range (n / 2 + 1)).map fun k =>
    ∑ d, (blockPrecondSpec B acf k)⁻¹ p.2 d * (rfft n (lagCol v d)).getD k 0)) p.1

/-- numpy/cgd.py:226, torch/cgd.py:234: `2 ** ceil(log2(2 * n_col))`. -/
def blockNfft (n : ℕ) : ℕ := 2 ^ Nat.clog 2 (2 * n)

/-- `circ_col` of numpy/cgd.py:229-239, torch/cgd.py:237-247 for one pair of channels. -/
noncomputable def blockCircCol (B : Backend) (n : ℕ) (col : List ℝ) : List ℝ :=
  pySlice col none (some 1) ++ B.revLast n col
    ++ List.replicate (blockNfft n - 2 * n + 1) 0 ++ B.revMid n col

/-- numpy/cgd.py:208-279, torch/cgd.py:216-287, `BlockToeplitzOperator(acf) @ v` for
`acf.shape[-3] // 2 = n`. -/
noncomputable def blockToeplitzOp {c : ℕ} (B : Backend) (n : ℕ) (acf : Fin c → Fin c → List ℝ)
    (v : Fin n × Fin c → ℝ) : Fin n × Fin c → ℝ :=
  let nfft := blockNfft n
  fun p => vec n (pySlice (irfft nfft ((List.range (nfft / 2 + 1)).map fun k =>
    ∑ d, (rfft (blockCircCol B n (acf p.2 d)).length (blockCircCol B n (acf p.2 d))).getD k 0
      * (rfft nfft (lagCol v d)).getD k 0)) none (some n)) p.1

/-! ### conjugate gradient -/

/-- `inner_prod`, numpy/cgd.py:287-288 (real arrays: `conj` is the identity). -/
noncomputable def innerProd {J : Type} [Fintype J] (a b : J → ℝ) : ℝ := ∑ i, a i * b i

/-- The variables of the loop in numpy/cgd.py:324-352. -/
structure CgState (J : Type) where
  x : J → ℝ
  r : J → ℝ
  p : J → ℝ
  rsold : ℝ

/-- numpy/cgd.py:324-328, torch/cgd.py:332-336: initialisation. -/
noncomputable def cgInit {J : Type} [Fintype J] (A M : (J → ℝ) → (J → ℝ)) (b x0 : J → ℝ) :
    CgState J :=
  let r := b - A x0
  let z := M r
  ⟨x0, r, z, innerProd r z⟩

/-- numpy/cgd.py:335-352, torch/cgd.py:343-360: body of the loop for a given `epoch`.
`epoch + 1 % 5 == 0` parses as `epoch + (1 % 5) == 0`. -/
noncomputable def cgBody {J : Type} [Fintype J] (A M : (J → ℝ) → (J → ℝ)) (b : J → ℝ)
    (st : CgState J) (epoch : ℕ) : CgState J :=
  let Ap := A st.p
  let pAp := innerProd st.p Ap
  let alpha := st.rsold / max pAp 1e-6
  let x := st.x + alpha • st.p
  let r := if epoch + 1 % 5 = 0 then b - A x else st.r - alpha • Ap
  let z := M r
  let rsnew := innerProd r z
  let beta := rsnew / max st.rsold 1e-6
  ⟨x, r, z + beta • st.p, rsnew⟩

/-- The state after `n_iter` iterations.  numpy/cgd.py:324-352, torch/cgd.py:332-360. -/
noncomputable def cgRun {J : Type} [Fintype J] (A M : (J → ℝ) → (J → ℝ)) (b x0 : J → ℝ)
    (nIter : ℕ) : CgState J :=
  (List.range nIter).foldl (cgBody A M b) (cgInit A M b x0)

/-- numpy/cgd.py:291-363, torch/cgd.py:299-371, `conjugate_gradient` without `x_true`. -/
noncomputable def conjugateGradient {J : Type} [Fintype J] (A M : (J → ℝ) → (J → ℝ))
    (b x0 : J → ℝ) (nIter : ℕ) : J → ℝ :=
  (cgRun A M b x0 nIter).x

/-- numpy/cgd.py:366-383, torch/cgd.py:374-391, `toeplitz_conjugate_gradient` with `x=None`. -/
noncomputable def toeplitzCg (B : Backend) (n : ℕ) (acf : List ℝ) (b : Fin n → ℝ) (nIter : ℕ) :
    Fin n → ℝ :=
  conjugateGradient (symToeplitzOp B n acf) (circPrecond B n acf) b (fun _ => 0) nIter

/-- numpy/cgd.py:386-404, torch/cgd.py:394-411, `block_toeplitz_conjugate_gradient` for a batch
`ι` of systems and `κ` columns; `acf.shape[-3] // 2 = n`.  The constructor of the preconditioner
inverts a matrix for every batch item and frequency and fails as a whole. -/
noncomputable def blockCg {ι κ : Type} {c : ℕ} (B : Backend) (n : ℕ)
    (acf : ι → Fin c → Fin c → List ℝ) (b x0 : ι → κ → Fin n × Fin c → ℝ) (nIter : ℕ) :
    Except PyErr (ι → κ → Fin n × Fin c → ℝ) :=
  if ∃ i, ∃ k ≤ n / 2, (blockPrecondSpec B (acf i) k).det = 0 then .error .linAlgError
  else .ok fun i k => conjugateGradient (blockToeplitzOp B n (acf i)) (blockPrecond B n (acf i))
    (b i k) (x0 i k) nIter

end FBE
