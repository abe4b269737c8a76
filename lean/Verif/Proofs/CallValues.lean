import Verif.Spec.CallValues
import Verif.Proofs.Dispatch

/-!
# Lemmas on the values of the arguments of a call
-/

namespace FBE

open Spec

/-- The bound values are the given ones. -/
theorem value_of_given {f : Fn} {pos : List Val} {kw : List (String × Val)} {vs : List Val}
    (h : bindArgs (publicSig f) pos kw = .ok vs) {name : String} {v : Val}
    (hg : Given f pos kw name v) (i : ℕ)
    (hi : (arrayNames f ++ optionNames f)[i]? = some name) : vs[i]? = some v := by
  have hacc := (bindArgs_public_ok_iff f pos kw).1 ⟨vs, h⟩
  obtain ⟨h1, h2, h3⟩ := bindArgs_values f pos kw vs h
  have hnd : (arrayNames f ++ optionNames f).Nodup := by
    rw [← publicSig_names]
    exact publicSig_nodup f
  rcases hg with ⟨j, hj, hv⟩ | hk | ⟨hn, hk, hd⟩
  · have hlt : i < (arrayNames f ++ optionNames f).length := (List.getElem?_eq_some_iff.1 hi).1
    have hij : i = j := (List.getElem?_inj hlt hnd).1 (hi.trans hj.symm)
    subst hij
    have hl : i < pos.length := (List.getElem?_eq_some_iff.1 hv).1
    rw [← h1, List.getElem?_take, if_pos hl] at hv
    exact hv
  · exact h2 i name hi v hk
  · rw [h3 i name hi ?_ hk, hd]
    by_contra hlt
    refine hn (List.mem_iff_getElem?.2 ⟨i, ?_⟩)
    rw [List.getElem?_take, if_pos (by omega)]
    exact hi

theorem Spec.FlagValue.truthy {v : Val} {b : Bool} (h : FlagValue v b) : v.truthy = .ok b := by
  cases h <;> simp_all [Val.truthy]

theorem Spec.NumberValue.optReal {v : Val} {x : Option ℝ} (h : NumberValue v x) : v.optReal = .ok x := by
  cases h <;> rfl

theorem Spec.CountValue.optNat {v : Val} {n : Option ℕ} (h : CountValue v n) : v.optNat = .ok n := by
  cases h <;> rfl

/-- An accepted call, with torch or of one of the three functions that need no torch, runs the body
of the function of the package of the first argument on the bound values. -/
theorem callPublic_values {ρ : Type*} (hasTorch : Bool) (impl : Impl ρ) (f : Fn) (pos : List Val)
    (kw : List (String × Val)) (hacc : Accepts f pos kw) (t : Bool) (ht : t = true → hasTorch = true)
    (hf : hasTorch = true ∨ f = .bssEvalSources ∨ f = .sdr ∨ f = .sdrLoss)
    (a : Arr) (ha : a.tensor = t) (hfirst : Given f pos kw (firstName f) (.arr a)) :
    ∃ vs, callPublic hasTorch impl f pos kw = impl (if t then .torch else .numpy) f vs ∧
      vs.length = (publicSig f).length ∧
      ∀ (i : ℕ) (name : String) (v : Val), (arrayNames f ++ optionNames f)[i]? = some name →
        Given f pos kw name v → vs[i]? = some v := by
  obtain ⟨vs, hvs⟩ := (bindArgs_public_ok_iff f pos kw).2 hacc
  refine ⟨vs, ?_, bindArgs_length hvs, fun i name v hi hg => value_of_given hvs hg i hi⟩
  obtain ⟨v, rest, hv, hten⟩ := forwarded_head f pos kw vs hvs
  have h0 : vs[0]? = some (.arr a) := by
    refine value_of_given hvs hfirst 0 ?_
    cases f <;> rfl
  have hb := fun p => bind_forwarded p f vs (bindArgs_length hvs)
  have hhead : v = .arr a := by
    have : (forwarded f vs).1.head? = vs[0]? := by
      have hlen := bindArgs_length hvs
      clear * - hlen
      match f, vs, hlen with
      | .bssEvalSources, [_, _, _, _, _, _, _, _], _ => rfl
      | .sdr, [_, _, _, _, _, _, _, _, _], _ => rfl
      | .sdrLoss, [_, _, _, _, _, _, _, _], _ => rfl
      | .sdrPitLoss, [_, _, _, _, _, _, _], _ => rfl
      | .siBssEvalSources, [_, _, _, _, _, _], _ => rfl
      | .siSdr, [_, _, _, _, _, _], _ => rfl
      | .siSdrLoss, [_, _, _, _, _], _ => rfl
      | .siSdrPitLoss, [_, _, _, _], _ => rfl
    rw [hv, h0] at this
    exact Option.some.inj this
  have hcall : ∀ p, callPkg impl p f (forwarded f vs).1 (forwarded f vs).2 = impl p f vs := by
    intro p
    unfold callPkg
    rw [hb p]
  unfold callPublic
  rw [hvs]
  have hisT : v.isTensor = t := by rw [hhead]; exact ha
  cases hasTorch with
  | true =>
    have hattr : torchAttr true f = .ok (some .torch) := rfl
    simp only [hattr]
    unfold dispatchBackend
    rw [if_pos rfl, hv]
    dsimp only
    rw [← hv, hisT]
    cases t with
    | true => exact hcall .torch
    | false => exact hcall .numpy
  | false =>
    have htf : t = false := by
      cases t with
      | false => rfl
      | true => exact absurd (ht rfl) (by simp)
    subst htf
    have hattr : torchAttr false f = .ok Option.none := by
      rcases hf with h | rfl | rfl | rfl
      · cases h
      all_goals rfl
    simp only [hattr]
    exact hcall .numpy

end FBE
