import Verif.Proofs.CallValues
import Verif.Props.C35_C36_Dispatch

/-!
# C36: the options given in a call are the options the functions run with
-/

namespace FBE.Props

open Spec

variable {s : List ℕ} {r e c N : ℕ}

/-- C36: `bss_eval_sources` called in any way that Python accepts (arguments by position or keyword,
options left out) on two arrays of one package runs the modelled function of this package on the
references and the estimates with the options given: integers are accepted as flags and as numbers,
and `clamp_db=0`, `load_diag=0` and `use_cg_iter=0` are numbers, not `None`.  Without torch the
numpy package is used. -/
theorem C36_bss_eval_sources (hasTorch : Bool) (scipyLsa : Lsa) (numpy2 t : Bool)
    (ht : t = true → hasTorch = true)
    (ref : Sig s r N) (est : Sig s e N) (o : Opts) (cp : Bool)
    (pos : List Val) (kw : List (String × Val)) (hacc : Accepts .bssEvalSources pos kw)
    (href : Given .bssEvalSources pos kw "ref" (.arr ⟨t, s, r, N, ref⟩))
    (hest : Given .bssEvalSources pos kw "est" (.arr ⟨t, s, e, N, est⟩))
    (ho : OptionsAre .bssEvalSources pos kw o)
    (hcp : FlagIs .bssEvalSources pos kw "compute_permutation" cp) :
    callPublic hasTorch (modelImpl scipyLsa numpy2) .bssEvalSources pos kw =
      (bssEvalSources (backendOf scipyLsa numpy2 t) o cp ref est).map (Res.bss s _) := by
  obtain ⟨vs, hcall, hlen, hval⟩ := callPublic_values hasTorch (modelImpl scipyLsa numpy2)
    .bssEvalSources pos kw hacc t ht (Or.inr (Or.inl rfl)) _ rfl href
  obtain ⟨hfl, ⟨vcg, hcg, hcg'⟩, ⟨vzm, hzm, hzm'⟩, ⟨vcl, hcl, hcl'⟩, ⟨vld, hld, hld'⟩⟩ := ho
  obtain ⟨vcp, hcp, hcp'⟩ := hcp
  have e0 := hval 0 _ _ rfl href
  have e1 := hval 1 _ _ rfl hest
  have e2 := hval 2 _ _ rfl hfl
  have e3 := hval 3 _ _ rfl hcg
  have e4 := hval 4 _ _ rfl hzm
  have e5 := hval 5 _ _ rfl hcl
  have e6 := hval 6 _ _ rfl hcp
  have e7 := hval 7 _ _ rfl hld
  rw [hcall]
  clear hcall hval
  match vs, hlen with
  | [_, _, _, _, _, _, _, _], _ =>
    simp only [List.getElem?_cons_zero, List.getElem?_cons_succ, Option.some.injEq] at e0 e1 e2 e3 e4 e5 e6 e7
    subst e0 e1 e2 e3 e4 e5 e6 e7
    cases t <;>
    simp [modelImpl, mkOpts, Val.nat, hcg'.optNat, hzm'.truthy, hcl'.optReal, hcp'.truthy, hld'.optReal,
      withArrays, backendOf, bind, Except.bind, pure, Except.pure]

/-- C36: the same for `sdr`. -/
theorem C36_sdr (hasTorch : Bool) (scipyLsa : Lsa) (numpy2 t : Bool)
    (ht : t = true → hasTorch = true)
    (ref : Sig s r N) (est : Sig s e N) (o : Opts) (rp cs : Bool)
    (pos : List Val) (kw : List (String × Val)) (hacc : Accepts .sdr pos kw)
    (href : Given .sdr pos kw "ref" (.arr ⟨t, s, r, N, ref⟩))
    (hest : Given .sdr pos kw "est" (.arr ⟨t, s, e, N, est⟩))
    (ho : OptionsAre .sdr pos kw o)
    (hrp : FlagIs .sdr pos kw "return_perm" rp)
    (hcs : FlagIs .sdr pos kw "change_sign" cs) :
    callPublic hasTorch (modelImpl scipyLsa numpy2) .sdr pos kw =
      (sdr (backendOf scipyLsa numpy2 t) o rp cs ref est).map (Res.sdr s _) := by
  obtain ⟨vs, hcall, hlen, hval⟩ := callPublic_values hasTorch (modelImpl scipyLsa numpy2)
    .sdr pos kw hacc t ht (Or.inr (Or.inr (Or.inl rfl))) _ rfl href
  obtain ⟨hfl, ⟨vcg, hcg, hcg'⟩, ⟨vzm, hzm, hzm'⟩, ⟨vcl, hcl, hcl'⟩, ⟨vld, hld, hld'⟩⟩ := ho
  obtain ⟨vrp, hrp, hrp'⟩ := hrp
  obtain ⟨vcs, hcs, hcs'⟩ := hcs
  have e0 := hval 0 _ _ rfl href
  have e1 := hval 1 _ _ rfl hest
  have e2 := hval 2 _ _ rfl hfl
  have e3 := hval 3 _ _ rfl hcg
  have e4 := hval 4 _ _ rfl hzm
  have e5 := hval 5 _ _ rfl hcl
  have e6 := hval 6 _ _ rfl hld
  have e7 := hval 7 _ _ rfl hrp
  have e8 := hval 8 _ _ rfl hcs
  rw [hcall]
  clear hcall hval
  match vs, hlen with
  | [_, _, _, _, _, _, _, _, _], _ =>
    simp only [List.getElem?_cons_zero, List.getElem?_cons_succ, Option.some.injEq] at e0 e1 e2 e3 e4 e5 e6 e7 e8
    subst e0 e1 e2 e3 e4 e5 e6 e7 e8
    cases t <;>
    simp [modelImpl, mkOpts, Val.nat, hcg'.optNat, hzm'.truthy, hcl'.optReal, hld'.optReal, hrp'.truthy, hcs'.truthy,
      withArrays, backendOf, bind, Except.bind, pure, Except.pure]

/-- C36: the same for `sdr_loss` with `pairwise`. -/
theorem C36_sdr_loss_pairwise (hasTorch : Bool) (scipyLsa : Lsa) (numpy2 t : Bool)
    (ht : t = true → hasTorch = true)
    (ref : Sig s r N) (est : Sig s e N) (o : Opts)
    (pos : List Val) (kw : List (String × Val)) (hacc : Accepts .sdrLoss pos kw)
    (href : Given .sdrLoss pos kw "ref" (.arr ⟨t, s, r, N, ref⟩))
    (hest : Given .sdrLoss pos kw "est" (.arr ⟨t, s, e, N, est⟩))
    (ho : OptionsAre .sdrLoss pos kw o)
    (hpw : FlagIs .sdrLoss pos kw "pairwise" true) :
    callPublic hasTorch (modelImpl scipyLsa numpy2) .sdrLoss pos kw =
      (sdrLossPair (backendOf scipyLsa numpy2 t) o est ref).map (Res.pair s r e) := by
  obtain ⟨vs, hcall, hlen, hval⟩ := callPublic_values hasTorch (modelImpl scipyLsa numpy2)
    .sdrLoss pos kw hacc t ht (Or.inr (Or.inr (Or.inr rfl))) _ rfl hest
  obtain ⟨hfl, ⟨vcg, hcg, hcg'⟩, ⟨vzm, hzm, hzm'⟩, ⟨vcl, hcl, hcl'⟩, ⟨vld, hld, hld'⟩⟩ := ho
  obtain ⟨vpw, hpw, hpw'⟩ := hpw
  have e0 := hval 0 _ _ rfl hest
  have e1 := hval 1 _ _ rfl href
  have e2 := hval 2 _ _ rfl hfl
  have e3 := hval 3 _ _ rfl hcg
  have e4 := hval 4 _ _ rfl hzm
  have e5 := hval 5 _ _ rfl hcl
  have e6 := hval 6 _ _ rfl hld
  have e7 := hval 7 _ _ rfl hpw
  rw [hcall]
  clear hcall hval
  match vs, hlen with
  | [_, _, _, _, _, _, _, _], _ =>
    simp only [List.getElem?_cons_zero, List.getElem?_cons_succ, Option.some.injEq] at e0 e1 e2 e3 e4 e5 e6 e7
    subst e0 e1 e2 e3 e4 e5 e6 e7
    cases t <;>
    simp [modelImpl, mkOpts, Val.nat, hcg'.optNat, hzm'.truthy, hcl'.optReal, hld'.optReal, hpw'.truthy,
      withArrays, backendOf, bind, Except.bind, pure, Except.pure]

/-- C36: the same for `sdr_loss` on as many references as estimates, without `pairwise`. -/
theorem C36_sdr_loss (hasTorch : Bool) (scipyLsa : Lsa) (numpy2 t : Bool)
    (ht : t = true → hasTorch = true)
    (ref : Sig s c N) (est : Sig s c N) (o : Opts)
    (pos : List Val) (kw : List (String × Val)) (hacc : Accepts .sdrLoss pos kw)
    (href : Given .sdrLoss pos kw "ref" (.arr ⟨t, s, c, N, ref⟩))
    (hest : Given .sdrLoss pos kw "est" (.arr ⟨t, s, c, N, est⟩))
    (ho : OptionsAre .sdrLoss pos kw o)
    (hpw : FlagIs .sdrLoss pos kw "pairwise" false) :
    callPublic hasTorch (modelImpl scipyLsa numpy2) .sdrLoss pos kw =
      (sdrLossDiag (backendOf scipyLsa numpy2 t) o est ref).map (Res.diag s c) := by
  obtain ⟨vs, hcall, hlen, hval⟩ := callPublic_values hasTorch (modelImpl scipyLsa numpy2)
    .sdrLoss pos kw hacc t ht (Or.inr (Or.inr (Or.inr rfl))) _ rfl hest
  obtain ⟨hfl, ⟨vcg, hcg, hcg'⟩, ⟨vzm, hzm, hzm'⟩, ⟨vcl, hcl, hcl'⟩, ⟨vld, hld, hld'⟩⟩ := ho
  obtain ⟨vpw, hpw, hpw'⟩ := hpw
  have e0 := hval 0 _ _ rfl hest
  have e1 := hval 1 _ _ rfl href
  have e2 := hval 2 _ _ rfl hfl
  have e3 := hval 3 _ _ rfl hcg
  have e4 := hval 4 _ _ rfl hzm
  have e5 := hval 5 _ _ rfl hcl
  have e6 := hval 6 _ _ rfl hld
  have e7 := hval 7 _ _ rfl hpw
  rw [hcall]
  clear hcall hval
  match vs, hlen with
  | [_, _, _, _, _, _, _, _], _ =>
    simp only [List.getElem?_cons_zero, List.getElem?_cons_succ, Option.some.injEq] at e0 e1 e2 e3 e4 e5 e6 e7
    subst e0 e1 e2 e3 e4 e5 e6 e7
    cases t <;>
    simp [modelImpl, mkOpts, Val.nat, hcg'.optNat, hzm'.truthy, hcl'.optReal, hld'.optReal, hpw'.truthy,
      withArrays, backendOf, bind, Except.bind, pure, Except.pure]

/-- C36: the same for `sdr_pit_loss`, which needs torch to be installed. -/
theorem C36_sdr_pit_loss (scipyLsa : Lsa) (numpy2 t : Bool)
    (ref : Sig s r N) (est : Sig s e N) (o : Opts)
    (pos : List Val) (kw : List (String × Val)) (hacc : Accepts .sdrPitLoss pos kw)
    (href : Given .sdrPitLoss pos kw "ref" (.arr ⟨t, s, r, N, ref⟩))
    (hest : Given .sdrPitLoss pos kw "est" (.arr ⟨t, s, e, N, est⟩))
    (ho : OptionsAre .sdrPitLoss pos kw o) :
    callPublic true (modelImpl scipyLsa numpy2) .sdrPitLoss pos kw =
      (sdrPitLoss (backendOf scipyLsa numpy2 t) o est ref).map (Res.sdr s _) := by
  obtain ⟨vs, hcall, hlen, hval⟩ := callPublic_values true (modelImpl scipyLsa numpy2)
    .sdrPitLoss pos kw hacc t (fun _ => rfl) (Or.inl rfl) _ rfl hest
  obtain ⟨hfl, ⟨vcg, hcg, hcg'⟩, ⟨vzm, hzm, hzm'⟩, ⟨vcl, hcl, hcl'⟩, ⟨vld, hld, hld'⟩⟩ := ho
  have e0 := hval 0 _ _ rfl hest
  have e1 := hval 1 _ _ rfl href
  have e2 := hval 2 _ _ rfl hfl
  have e3 := hval 3 _ _ rfl hcg
  have e4 := hval 4 _ _ rfl hzm
  have e5 := hval 5 _ _ rfl hcl
  have e6 := hval 6 _ _ rfl hld
  rw [hcall]
  clear hcall hval
  match vs, hlen with
  | [_, _, _, _, _, _, _], _ =>
    simp only [List.getElem?_cons_zero, List.getElem?_cons_succ, Option.some.injEq] at e0 e1 e2 e3 e4 e5 e6
    subst e0 e1 e2 e3 e4 e5 e6
    cases t <;>
    simp [modelImpl, mkOpts, Val.nat, hcg'.optNat, hzm'.truthy, hcl'.optReal, hld'.optReal,
      withArrays, backendOf, bind, Except.bind, pure, Except.pure]

/-- C36: the same for `si_bss_eval_sources`. -/
theorem C36_si_bss_eval_sources (scipyLsa : Lsa) (numpy2 t : Bool)
    (ref : Sig s r N) (est : Sig s e N) (zm cp : Bool) (cl ld : Option ℝ)
    (pos : List Val) (kw : List (String × Val)) (hacc : Accepts .siBssEvalSources pos kw)
    (href : Given .siBssEvalSources pos kw "ref" (.arr ⟨t, s, r, N, ref⟩))
    (hest : Given .siBssEvalSources pos kw "est" (.arr ⟨t, s, e, N, est⟩))
    (hzm : FlagIs .siBssEvalSources pos kw "zero_mean" zm)
    (hcl : NumberIs .siBssEvalSources pos kw "clamp_db" cl)
    (hcp : FlagIs .siBssEvalSources pos kw "compute_permutation" cp)
    (hld : NumberIs .siBssEvalSources pos kw "load_diag" ld) :
    callPublic true (modelImpl scipyLsa numpy2) .siBssEvalSources pos kw =
      (siBssEvalSources (backendOf scipyLsa numpy2 t) zm cl cp ld ref est).map (Res.bss s _) := by
  obtain ⟨vs, hcall, hlen, hval⟩ := callPublic_values true (modelImpl scipyLsa numpy2)
    .siBssEvalSources pos kw hacc t (fun _ => rfl) (Or.inl rfl) _ rfl href
  obtain ⟨vzm, hzm, hzm'⟩ := hzm
  obtain ⟨vcl, hcl, hcl'⟩ := hcl
  obtain ⟨vcp, hcp, hcp'⟩ := hcp
  obtain ⟨vld, hld, hld'⟩ := hld
  have e0 := hval 0 _ _ rfl href
  have e1 := hval 1 _ _ rfl hest
  have e2 := hval 2 _ _ rfl hzm
  have e3 := hval 3 _ _ rfl hcl
  have e4 := hval 4 _ _ rfl hcp
  have e5 := hval 5 _ _ rfl hld
  rw [hcall]
  clear hcall hval
  match vs, hlen with
  | [_, _, _, _, _, _], _ =>
    simp only [List.getElem?_cons_zero, List.getElem?_cons_succ, Option.some.injEq] at e0 e1 e2 e3 e4 e5
    subst e0 e1 e2 e3 e4 e5
    cases t <;>
    simp [modelImpl, hzm'.truthy, hcl'.optReal, hcp'.truthy, hld'.optReal,
      withArrays, backendOf, bind, Except.bind]

/-- C36: the same for `si_sdr`. -/
theorem C36_si_sdr (scipyLsa : Lsa) (numpy2 t : Bool)
    (ref : Sig s r N) (est : Sig s e N) (zm rp cs : Bool) (cl : Option ℝ)
    (pos : List Val) (kw : List (String × Val)) (hacc : Accepts .siSdr pos kw)
    (href : Given .siSdr pos kw "ref" (.arr ⟨t, s, r, N, ref⟩))
    (hest : Given .siSdr pos kw "est" (.arr ⟨t, s, e, N, est⟩))
    (hzm : FlagIs .siSdr pos kw "zero_mean" zm)
    (hcl : NumberIs .siSdr pos kw "clamp_db" cl)
    (hrp : FlagIs .siSdr pos kw "return_perm" rp)
    (hcs : FlagIs .siSdr pos kw "change_sign" cs) :
    callPublic true (modelImpl scipyLsa numpy2) .siSdr pos kw =
      (siSdr (backendOf scipyLsa numpy2 t) zm cl rp cs ref est).map (Res.sdr s _) := by
  obtain ⟨vs, hcall, hlen, hval⟩ := callPublic_values true (modelImpl scipyLsa numpy2)
    .siSdr pos kw hacc t (fun _ => rfl) (Or.inl rfl) _ rfl href
  obtain ⟨vzm, hzm, hzm'⟩ := hzm
  obtain ⟨vcl, hcl, hcl'⟩ := hcl
  obtain ⟨vrp, hrp, hrp'⟩ := hrp
  obtain ⟨vcs, hcs, hcs'⟩ := hcs
  have e0 := hval 0 _ _ rfl href
  have e1 := hval 1 _ _ rfl hest
  have e2 := hval 2 _ _ rfl hzm
  have e3 := hval 3 _ _ rfl hcl
  have e4 := hval 4 _ _ rfl hrp
  have e5 := hval 5 _ _ rfl hcs
  rw [hcall]
  clear hcall hval
  match vs, hlen with
  | [_, _, _, _, _, _], _ =>
    simp only [List.getElem?_cons_zero, List.getElem?_cons_succ, Option.some.injEq] at e0 e1 e2 e3 e4 e5
    subst e0 e1 e2 e3 e4 e5
    cases t <;>
    simp [modelImpl, hzm'.truthy, hcl'.optReal, hrp'.truthy, hcs'.truthy,
      withArrays, backendOf, bind, Except.bind]

/-- C36: the same for `si_sdr_loss` with `pairwise`. -/
theorem C36_si_sdr_loss_pairwise (scipyLsa : Lsa) (numpy2 t : Bool)
    (ref : Sig s r N) (est : Sig s e N) (zm : Bool) (cl : Option ℝ)
    (pos : List Val) (kw : List (String × Val)) (hacc : Accepts .siSdrLoss pos kw)
    (href : Given .siSdrLoss pos kw "ref" (.arr ⟨t, s, r, N, ref⟩))
    (hest : Given .siSdrLoss pos kw "est" (.arr ⟨t, s, e, N, est⟩))
    (hzm : FlagIs .siSdrLoss pos kw "zero_mean" zm)
    (hcl : NumberIs .siSdrLoss pos kw "clamp_db" cl)
    (hpw : FlagIs .siSdrLoss pos kw "pairwise" true) :
    callPublic true (modelImpl scipyLsa numpy2) .siSdrLoss pos kw =
      (siSdrLossPair (backendOf scipyLsa numpy2 t) zm cl est ref).map (Res.pair s r e) := by
  obtain ⟨vs, hcall, hlen, hval⟩ := callPublic_values true (modelImpl scipyLsa numpy2)
    .siSdrLoss pos kw hacc t (fun _ => rfl) (Or.inl rfl) _ rfl hest
  obtain ⟨vzm, hzm, hzm'⟩ := hzm
  obtain ⟨vcl, hcl, hcl'⟩ := hcl
  obtain ⟨vpw, hpw, hpw'⟩ := hpw
  have e0 := hval 0 _ _ rfl hest
  have e1 := hval 1 _ _ rfl href
  have e2 := hval 2 _ _ rfl hzm
  have e3 := hval 3 _ _ rfl hcl
  have e4 := hval 4 _ _ rfl hpw
  rw [hcall]
  clear hcall hval
  match vs, hlen with
  | [_, _, _, _, _], _ =>
    simp only [List.getElem?_cons_zero, List.getElem?_cons_succ, Option.some.injEq] at e0 e1 e2 e3 e4
    subst e0 e1 e2 e3 e4
    cases t <;>
    simp [modelImpl, hzm'.truthy, hcl'.optReal, hpw'.truthy,
      withArrays, backendOf, bind, Except.bind]

/-- C36: the same for `si_sdr_loss` on as many references as estimates, without `pairwise`. -/
theorem C36_si_sdr_loss (scipyLsa : Lsa) (numpy2 t : Bool)
    (ref : Sig s c N) (est : Sig s c N) (zm : Bool) (cl : Option ℝ)
    (pos : List Val) (kw : List (String × Val)) (hacc : Accepts .siSdrLoss pos kw)
    (href : Given .siSdrLoss pos kw "ref" (.arr ⟨t, s, c, N, ref⟩))
    (hest : Given .siSdrLoss pos kw "est" (.arr ⟨t, s, c, N, est⟩))
    (hzm : FlagIs .siSdrLoss pos kw "zero_mean" zm)
    (hcl : NumberIs .siSdrLoss pos kw "clamp_db" cl)
    (hpw : FlagIs .siSdrLoss pos kw "pairwise" false) :
    callPublic true (modelImpl scipyLsa numpy2) .siSdrLoss pos kw =
      (siSdrLossDiag (backendOf scipyLsa numpy2 t) zm cl est ref).map (Res.diag s c) := by
  obtain ⟨vs, hcall, hlen, hval⟩ := callPublic_values true (modelImpl scipyLsa numpy2)
    .siSdrLoss pos kw hacc t (fun _ => rfl) (Or.inl rfl) _ rfl hest
  obtain ⟨vzm, hzm, hzm'⟩ := hzm
  obtain ⟨vcl, hcl, hcl'⟩ := hcl
  obtain ⟨vpw, hpw, hpw'⟩ := hpw
  have e0 := hval 0 _ _ rfl hest
  have e1 := hval 1 _ _ rfl href
  have e2 := hval 2 _ _ rfl hzm
  have e3 := hval 3 _ _ rfl hcl
  have e4 := hval 4 _ _ rfl hpw
  rw [hcall]
  clear hcall hval
  match vs, hlen with
  | [_, _, _, _, _], _ =>
    simp only [List.getElem?_cons_zero, List.getElem?_cons_succ, Option.some.injEq] at e0 e1 e2 e3 e4
    subst e0 e1 e2 e3 e4
    cases t <;>
    simp [modelImpl, hzm'.truthy, hcl'.optReal, hpw'.truthy,
      withArrays, backendOf, bind, Except.bind]

/-- C36: the same for `si_sdr_pit_loss`. -/
theorem C36_si_sdr_pit_loss (scipyLsa : Lsa) (numpy2 t : Bool)
    (ref : Sig s r N) (est : Sig s e N) (zm : Bool) (cl : Option ℝ)
    (pos : List Val) (kw : List (String × Val)) (hacc : Accepts .siSdrPitLoss pos kw)
    (href : Given .siSdrPitLoss pos kw "ref" (.arr ⟨t, s, r, N, ref⟩))
    (hest : Given .siSdrPitLoss pos kw "est" (.arr ⟨t, s, e, N, est⟩))
    (hzm : FlagIs .siSdrPitLoss pos kw "zero_mean" zm)
    (hcl : NumberIs .siSdrPitLoss pos kw "clamp_db" cl) :
    callPublic true (modelImpl scipyLsa numpy2) .siSdrPitLoss pos kw =
      (siSdrPitLoss (backendOf scipyLsa numpy2 t) zm cl est ref).map (Res.sdr s _) := by
  obtain ⟨vs, hcall, hlen, hval⟩ := callPublic_values true (modelImpl scipyLsa numpy2)
    .siSdrPitLoss pos kw hacc t (fun _ => rfl) (Or.inl rfl) _ rfl hest
  obtain ⟨vzm, hzm, hzm'⟩ := hzm
  obtain ⟨vcl, hcl, hcl'⟩ := hcl
  have e0 := hval 0 _ _ rfl hest
  have e1 := hval 1 _ _ rfl href
  have e2 := hval 2 _ _ rfl hzm
  have e3 := hval 3 _ _ rfl hcl
  rw [hcall]
  clear hcall hval
  match vs, hlen with
  | [_, _, _, _], _ =>
    simp only [List.getElem?_cons_zero, List.getElem?_cons_succ, Option.some.injEq] at e0 e1 e2 e3
    subst e0 e1 e2 e3
    cases t <;>
    simp [modelImpl, hzm'.truthy, hcl'.optReal,
      withArrays, backendOf, bind, Except.bind]

/-! ### Concrete cases -/

-- `sdr(ref, est, 1, clamp_db=0, use_cg_iter=0, return_perm=2)`: zeros are values, 2 is a true flag
example (scipyLsa : Lsa) : callPublic false (modelImpl scipyLsa true) .sdr
    [.arr ⟨false, [], 2, 3, Ex.ref⟩, .arr ⟨false, [], 2, 3, Ex.est⟩, .int 1]
    [("clamp_db", .int 0), ("use_cg_iter", .int 0), ("return_perm", .int 2)] =
      (sdr (numpyBackend scipyLsa true)
        { filterLength := 1, useCgIter := some 0, zeroMean := false, clampDb := some 0, loadDiag := none }
        true false Ex.ref Ex.est).map (Res.sdr [] _) := by
  have d : ∀ name v, name ∈ (arrayNames .sdr ++ optionNames .sdr).drop 3 →
      name ≠ "clamp_db" → name ≠ "use_cg_iter" → name ≠ "return_perm" → defaultOf name = some v →
      Given .sdr [.arr ⟨false, [], 2, 3, Ex.ref⟩, .arr ⟨false, [], 2, 3, Ex.est⟩, .int 1]
        [("clamp_db", .int 0), ("use_cg_iter", .int 0), ("return_perm", .int 2)] name v := by
    intro name v hn h1 h2 h3 hd
    refine Or.inr (Or.inr ⟨?_, ?_, hd⟩)
    · simp [arrayNames, optionNames, firstName] at hn ⊢
      rcases hn with h | h | h | h | h | h <;> simp [h]
    · simp [h1, h2, h3]
  refine C36_sdr false scipyLsa true false (by simp) Ex.ref Ex.est
    { filterLength := 1, useCgIter := some 0, zeroMean := false, clampDb := some 0, loadDiag := none }
    true false _ _ ⟨?_, ?_, ?_, ?_⟩ (Or.inl ⟨0, rfl, rfl⟩) (Or.inl ⟨1, rfl, rfl⟩)
    ⟨Or.inl ⟨2, rfl, rfl⟩, ⟨_, Or.inr (Or.inl (by simp)), .int 0⟩, ⟨.bool false, ?_, .bool false⟩,
      ⟨.int 0, Or.inr (Or.inl (by simp)), ?_⟩, ⟨.none, ?_, .none⟩⟩
    ⟨.int 2, Or.inr (Or.inl (by simp)), .int 2 (by norm_num)⟩ ⟨.bool false, ?_, .bool false⟩
  · simp [arrayNames, optionNames, firstName]
  · simp
  · simp [arrayNames, optionNames, firstName]
  · simp [arrayNames, firstName]
  · exact d _ _ (by simp [arrayNames, optionNames, firstName]) (by simp) (by simp) (by simp) rfl
  · simpa using NumberValue.int 0
  · exact d _ _ (by simp [arrayNames, optionNames, firstName]) (by simp) (by simp) (by simp) rfl
  · exact d _ _ (by simp [arrayNames, optionNames, firstName]) (by simp) (by simp) (by simp) rfl

-- `si_sdr_loss(est, ref=ref, zero_mean=True, clamp_db=30, pairwise=True)` on tensors
example (scipyLsa : Lsa) : callPublic true (modelImpl scipyLsa true) .siSdrLoss
    [.arr ⟨true, [], 2, 3, Ex.est⟩]
    [("ref", .arr ⟨true, [], 2, 3, Ex.ref⟩), ("zero_mean", .bool true), ("clamp_db", .float 30),
      ("pairwise", .bool true)] =
      (siSdrLossPair torchBackend true (some 30) Ex.est Ex.ref).map (Res.pair [] 2 2) := by
  refine C36_si_sdr_loss_pairwise scipyLsa true true Ex.ref Ex.est true (some 30) _ _ ⟨?_, ?_, ?_, ?_⟩
    (Or.inr (Or.inl (by simp))) (Or.inl ⟨0, rfl, rfl⟩)
    ⟨_, Or.inr (Or.inl (by simp)), .bool true⟩ ⟨.float 30, Or.inr (Or.inl (by simp)), .float 30⟩
    ⟨_, Or.inr (Or.inl (by simp)), .bool true⟩
  · simp [arrayNames, optionNames, firstName]
  · simp
  · simp [arrayNames, optionNames, firstName]
  · simp [arrayNames, firstName]

end FBE.Props
