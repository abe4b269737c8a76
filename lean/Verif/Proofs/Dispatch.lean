import Verif.Spec.Call

/-!
# Argument binding and forwarding
-/

set_option linter.unusedSectionVars false

namespace FBE

open Spec

theorem fillArgs_length (kw : List (String × Val)) :
    ∀ (sig : Signature) (vs : List Val), fillArgs kw sig = .ok vs → vs.length = sig.length
  | [], vs, h => by
    simp only [fillArgs, Except.ok.injEq] at h
    simp [← h]
  | (name, dflt) :: rest, vs, h => by
    unfold fillArgs at h
    cases h1 : (kw.lookup name).or dflt with
    | none => simp [h1] at h
    | some v =>
      cases h2 : fillArgs kw rest with
      | error e => simp [h1, h2] at h
      | ok ws =>
        simp only [h1, h2, Except.ok.injEq] at h
        rw [← h, List.length_cons, List.length_cons, fillArgs_length kw rest ws h2]

theorem fillArgs_error (kw : List (String × Val)) :
    ∀ (sig : Signature) (e : PyErr), fillArgs kw sig = .error e → e = .typeError
  | [], e, h => by simp [fillArgs] at h
  | (name, dflt) :: rest, e, h => by
    unfold fillArgs at h
    cases h1 : (kw.lookup name).or dflt with
    | none =>
      simp only [h1, Except.error.injEq] at h
      exact h.symm
    | some v =>
      cases h2 : fillArgs kw rest with
      | error e' =>
        simp only [h1, h2, Except.error.injEq] at h
        rw [← h]
        exact fillArgs_error kw rest e' h2
      | ok ws => simp [h1, h2] at h

theorem fillArgs_ok_iff (kw : List (String × Val)) :
    ∀ sig : Signature, (∃ vs, fillArgs kw sig = .ok vs) ↔
      ∀ p ∈ sig, p.2 = none → ∃ v, (p.1, v) ∈ kw
  | [] => by simp [fillArgs]
  | (name, dflt) :: rest => by
    have ih := fillArgs_ok_iff kw rest
    rw [List.forall_mem_cons, ← ih]
    have hl : (kw.lookup name).or dflt = none ↔ dflt = none ∧ ¬ ∃ v, (name, v) ∈ kw := by
      rw [Option.or_eq_none_iff, and_comm, List.lookup_eq_none_iff]
      refine and_congr_right fun _ => ⟨fun h ⟨v, hv⟩ => ?_, fun h p hp => ?_⟩
      · have := h _ hv
        simp at this
      · by_contra hc
        apply h
        have : name = p.1 := by simpa using hc
        exact ⟨p.2, by rw [this]; exact hp⟩
    cases h1 : (kw.lookup name).or dflt with
    | none =>
      have h3 := hl.1 h1
      refine ⟨fun ⟨vs, h⟩ => ?_, fun h => absurd (h.1 h3.1) h3.2⟩
      unfold fillArgs at h
      simp [h1] at h
    | some v =>
      have h3 : dflt = none → ∃ v, (name, v) ∈ kw := by
        intro hd
        by_contra hc
        have := hl.2 ⟨hd, hc⟩
        rw [h1] at this
        cases this
      refine ⟨fun ⟨vs, h⟩ => ⟨h3, ?_⟩, fun ⟨_, ws, h⟩ => ⟨v :: ws, ?_⟩⟩
      · unfold fillArgs at h
        cases h2 : fillArgs kw rest with
        | error e => simp [h1, h2] at h
        | ok ws => exact ⟨ws, rfl⟩
      · unfold fillArgs
        rw [h1, h]

theorem bindArgs_length {sig : Signature} {pos : List Val} {kw : List (String × Val)}
    {vs : List Val} (h : bindArgs sig pos kw = .ok vs) : vs.length = sig.length := by
  unfold bindArgs at h
  split at h
  · simp at h
  · rename_i hlen
    split at h
    · simp at h
    · split at h
      · simp at h
      · cases h1 : fillArgs kw (sig.drop pos.length) with
        | error e => simp [h1] at h
        | ok ws =>
          simp only [h1, Except.ok.injEq] at h
          have := fillArgs_length _ _ _ h1
          rw [← h, List.length_append, this, List.length_drop]
          omega

theorem bindArgs_error {sig : Signature} {pos : List Val} {kw : List (String × Val)}
    {e : PyErr} (h : bindArgs sig pos kw = .error e) : e = .typeError := by
  unfold bindArgs at h
  split at h
  · exact (Except.error.inj h).symm
  · split at h
    · exact (Except.error.inj h).symm
    · split at h
      · exact (Except.error.inj h).symm
      · cases h1 : fillArgs kw (sig.drop pos.length) with
        | error e' =>
          simp only [h1, Except.error.injEq] at h
          rw [← h]
          exact fillArgs_error _ _ _ h1
        | ok ws => simp [h1] at h

theorem publicSig_names (f : Fn) :
    (publicSig f).map Prod.fst = arrayNames f ++ optionNames f := by
  cases f <;> simp [publicSig, arrayNames, optionNames, firstName]

theorem bindArgs_public_ok_iff (f : Fn) (pos : List Val) (kw : List (String × Val)) :
    (∃ vs, bindArgs (publicSig f) pos kw = .ok vs) ↔ Accepts f pos kw := by
  have hn := publicSig_names f
  have hl : (publicSig f).length = (arrayNames f ++ optionNames f).length := by
    rw [← hn, List.length_map]
  have hd : ((publicSig f).drop pos.length).map Prod.fst =
      (arrayNames f ++ optionNames f).drop pos.length := by
    rw [List.map_drop, hn]
  have hg : (∀ p ∈ (publicSig f).drop pos.length, p.2 = none → ∃ v, (p.1, v) ∈ kw) ↔
      ∀ name ∈ (arrayNames f).drop pos.length, ∃ v, (name, v) ∈ kw := by
    rcases pos with _ | ⟨a, _ | ⟨b, rest⟩⟩
    · cases f <;> simp [publicSig, arrayNames, firstName]
    · cases f <;> simp [publicSig, arrayNames, firstName]
    · have h0 : (arrayNames f).drop (a :: b :: rest).length = [] := by
        cases f <;> simp [arrayNames, firstName]
      rw [h0]
      refine iff_of_true (fun p hp hp2 => ?_) (by simp)
      have hp' : p ∈ (publicSig f).drop 2 := by
        have : (publicSig f).drop (a :: b :: rest).length
            = ((publicSig f).drop 2).drop rest.length := by
          rw [List.drop_drop]
          congr 1
          simp only [List.length_cons]
          omega
        rw [this] at hp
        exact List.mem_of_mem_drop hp
      exfalso
      revert hp' hp2
      rcases p with ⟨n, d⟩
      cases f <;> simp only [publicSig, List.drop_succ_cons, List.drop_zero, List.mem_cons,
        Prod.mk.injEq, List.not_mem_nil, or_false] <;> rintro rfl h <;> simp at h
  unfold bindArgs
  constructor
  · rintro ⟨vs, h⟩
    split at h
    · simp at h
    · rename_i h1
      split at h
      · simp at h
      · rename_i h2
        split at h
        · simp at h
        · rename_i h3
          refine ⟨by rw [← hl]; omega, not_not.1 h2, ?_, hg.1 ((fillArgs_ok_iff kw _).1 ?_)⟩
          · rw [← hd]
            exact not_not.1 h3
          · cases h4 : fillArgs kw ((publicSig f).drop pos.length) with
            | error e => simp [h4] at h
            | ok ws => exact ⟨ws, rfl⟩
  · rintro ⟨h1, h2, h3, h4⟩
    obtain ⟨ws, hw⟩ := (fillArgs_ok_iff kw _).2 (hg.2 h4)
    refine ⟨pos ++ ws, ?_⟩
    rw [if_neg (by rw [hl]; omega), if_neg (not_not.2 h2), if_neg (not_not.2 (by rw [hd]; exact h3)),
      hw]

/-- The forwarded arguments bind to the values of the parameters of the public function. -/
theorem bind_forwarded (p : Pkg) (f : Fn) (vs : List Val) (h : vs.length = (publicSig f).length) :
    bindArgs (pkgSig p f) (forwarded f vs).1 (forwarded f vs).2 = .ok vs := by
  match f, vs, h with
  | .bssEvalSources, [_, _, _, _, _, _, _, _], _ =>
    cases p <;>
      simp [bindArgs, pkgSig, numpySig, torchSig, forwarded, fillArgs, List.lookup]
  | .sdr, [_, _, _, _, _, _, _, _, _], _ =>
    cases p <;>
      simp [bindArgs, pkgSig, numpySig, torchSig, forwarded, fillArgs, List.lookup]
  | .sdrLoss, [_, _, _, _, _, _, _, _], _ =>
    cases p <;>
      simp [bindArgs, pkgSig, numpySig, torchSig, forwarded, fillArgs, List.lookup]
  | .sdrPitLoss, [_, _, _, _, _, _, _], _ =>
    cases p <;>
      simp [bindArgs, pkgSig, numpySig, torchSig, forwarded, fillArgs, List.lookup]
  | .siBssEvalSources, [_, _, _, _, _, _], _ =>
    cases p <;>
      simp [bindArgs, pkgSig, numpySig, torchSig, forwarded, fillArgs, List.lookup]
  | .siSdr, [_, _, _, _, _, _], _ =>
    cases p <;>
      simp [bindArgs, pkgSig, numpySig, torchSig, forwarded, fillArgs, List.lookup]
  | .siSdrLoss, [_, _, _, _, _], _ =>
    cases p <;>
      simp [bindArgs, pkgSig, numpySig, torchSig, forwarded, fillArgs, List.lookup]
  | .siSdrPitLoss, [_, _, _, _], _ =>
    cases p <;>
      simp [bindArgs, pkgSig, numpySig, torchSig, forwarded, fillArgs, List.lookup]

theorem pkgSig_eq (p : Pkg) (f : Fn) : pkgSig p f = publicSig f := by
  cases p <;> cases f <;> rfl

/-- The first value passed on is the one given for the first parameter. -/
theorem forwarded_head (f : Fn) (pos : List Val) (kw : List (String × Val)) (vs : List Val)
    (h : bindArgs (publicSig f) pos kw = .ok vs) :
    ∃ v rest, (forwarded f vs).1 = v :: rest ∧ (v.isTensor ↔ FirstIsTensor f pos kw) := by
  have hlen := bindArgs_length h
  have hf : ∃ v rest rest', vs = v :: rest ∧ (forwarded f vs).1 = v :: rest' := by
    clear h
    match f, vs, hlen with
    | .bssEvalSources, [_, _, _, _, _, _, _, _], _ => exact ⟨_, _, _, rfl, rfl⟩
    | .sdr, [_, _, _, _, _, _, _, _, _], _ => exact ⟨_, _, _, rfl, rfl⟩
    | .sdrLoss, [_, _, _, _, _, _, _, _], _ => exact ⟨_, _, _, rfl, rfl⟩
    | .sdrPitLoss, [_, _, _, _, _, _, _], _ => exact ⟨_, _, _, rfl, rfl⟩
    | .siBssEvalSources, [_, _, _, _, _, _], _ => exact ⟨_, _, _, rfl, rfl⟩
    | .siSdr, [_, _, _, _, _, _], _ => exact ⟨_, _, _, rfl, rfl⟩
    | .siSdrLoss, [_, _, _, _, _], _ => exact ⟨_, _, _, rfl, rfl⟩
    | .siSdrPitLoss, [_, _, _, _], _ => exact ⟨_, _, _, rfl, rfl⟩
  obtain ⟨v, rest, rest', hvs, hfw⟩ := hf
  refine ⟨v, rest', hfw, ?_⟩
  unfold bindArgs at h
  split at h
  · simp at h
  · split at h
    · simp at h
    · rename_i hnd
      have hnd := not_not.1 hnd
      split at h
      · simp at h
      · cases h1 : fillArgs kw ((publicSig f).drop pos.length) with
        | error e => simp [h1] at h
        | ok ws =>
          simp only [h1, Except.ok.injEq] at h
          unfold FirstIsTensor
          cases pos with
          | cons a as =>
            have : v = a := by
              rw [hvs] at h
              simpa using (List.cons.inj h).1.symm
            subst this
            constructor
            · exact fun hv => Or.inl ⟨v, as, rfl, hv⟩
            · rintro (⟨w, r, hw, ht⟩ | ⟨hw, _⟩)
              · rw [(List.cons.inj hw).1]
                exact ht
              · cases hw
          | nil =>
            obtain ⟨tail, htail⟩ : ∃ tail, publicSig f = (firstName f, none) :: tail := by
              cases f <;> exact ⟨_, rfl⟩
            rw [List.length_nil, List.drop_zero, htail] at h1
            unfold fillArgs at h1
            have hlk : kw.lookup (firstName f) = some v := by
              cases h2 : kw.lookup (firstName f) with
              | none => simp [h2] at h1
              | some w =>
                cases h3 : fillArgs kw tail with
                | error e => simp [h2, h3] at h1
                | ok us =>
                  simp only [h2, h3, Option.some_or, Except.ok.injEq] at h1
                  rw [List.nil_append, hvs, ← h1] at h
                  rw [(List.cons.inj h).1]
            have hmem : (firstName f, v) ∈ kw := by
              rw [List.lookup_eq_some_iff] at hlk
              obtain ⟨l, r, rfl, _⟩ := hlk
              simp
            constructor
            · exact fun hv => Or.inr ⟨rfl, v, hmem, hv⟩
            · rintro (⟨w, r, hw, ht⟩ | ⟨_, w, hw, ht⟩)
              · cases hw
              · have : w = v := by
                  have h5 := List.inj_on_of_nodup_map hnd hw hmem rfl
                  exact (Prod.mk.inj h5).2
                rw [← this]
                exact ht

theorem fillArgs_get (kw : List (String × Val)) :
    ∀ (sig : Signature) (vs : List Val), fillArgs kw sig = .ok vs →
      ∀ (i : ℕ) (p : String × Option Val), sig[i]? = some p → vs[i]? = (kw.lookup p.1).or p.2
  | [], vs, h, i, p, hp => by simp at hp
  | (name, dflt) :: rest, vs, h, i, p, hp => by
    unfold fillArgs at h
    cases h1 : (kw.lookup name).or dflt with
    | none => simp [h1] at h
    | some v =>
      cases h2 : fillArgs kw rest with
      | error e => simp [h1, h2] at h
      | ok ws =>
        simp only [h1, h2, Except.ok.injEq] at h
        subst h
        cases i with
        | zero =>
          simp only [List.getElem?_cons_zero, Option.some.injEq] at hp
          subst hp
          simp [h1]
        | succ i =>
          rw [List.getElem?_cons_succ] at hp ⊢
          exact fillArgs_get kw rest ws h2 i p hp

theorem publicSig_nodup (f : Fn) : ((publicSig f).map Prod.fst).Nodup := by
  cases f <;> simp [publicSig]

theorem publicSig_default (f : Fn) (p : String × Option Val) (hp : p ∈ publicSig f) :
    p.2 = defaultOf p.1 := by
  have : ∀ p ∈ publicSig f, p.2 = defaultOf p.1 := by
    cases f <;> simp [publicSig, defaultOf]
  exact this p hp

theorem bindArgs_values (f : Fn) (pos : List Val) (kw : List (String × Val)) (vs : List Val)
    (h : bindArgs (publicSig f) pos kw = .ok vs) :
    vs.take pos.length = pos ∧
      (∀ (i : ℕ) (name : String), (arrayNames f ++ optionNames f)[i]? = some name →
        ∀ v, (name, v) ∈ kw → vs[i]? = some v) ∧
      (∀ (i : ℕ) (name : String), (arrayNames f ++ optionNames f)[i]? = some name →
        pos.length ≤ i → (∀ v, (name, v) ∉ kw) → vs[i]? = defaultOf name) := by
  have hacc := (bindArgs_public_ok_iff f pos kw).1 ⟨vs, h⟩
  have hnames := publicSig_names f
  have hnd := publicSig_nodup f
  unfold bindArgs at h
  split at h
  · simp at h
  · split at h
    · simp at h
    · split at h
      · simp at h
      · cases h1 : fillArgs kw ((publicSig f).drop pos.length) with
        | error e => simp [h1] at h
        | ok ws =>
          simp only [h1, Except.ok.injEq] at h
          subst h
          have hget := fillArgs_get kw _ ws h1
          have hp : ∀ (i : ℕ) (name : String), (arrayNames f ++ optionNames f)[i]? = some name →
              ∃ p, (publicSig f)[i]? = some p ∧ p.1 = name := by
            intro i name hi
            rw [← hnames, List.getElem?_map] at hi
            cases h2 : (publicSig f)[i]? with
            | none => simp [h2] at hi
            | some p => exact ⟨p, rfl, by simpa [h2] using hi⟩
          have hval : ∀ (i : ℕ) (p : String × Option Val), (publicSig f)[i]? = some p →
              pos.length ≤ i → (pos ++ ws)[i]? = (kw.lookup p.1).or p.2 := by
            intro i p hi hle
            rw [List.getElem?_append_right hle]
            refine hget _ p ?_
            rw [List.getElem?_drop, Nat.add_sub_cancel' hle]
            exact hi
          refine ⟨by simp, fun i name hi v hv => ?_, fun i name hi hle hno => ?_⟩
          · obtain ⟨p, hpi, hpn⟩ := hp i name hi
            have hle : pos.length ≤ i := by
              by_contra hlt
              have h3 := hacc.known _ hv
              rw [← hnames, ← List.map_drop] at h3
              obtain ⟨q, hq, hqn⟩ := List.mem_map.1 h3
              obtain ⟨j, hj⟩ := List.mem_iff_getElem?.1 hq
              rw [List.getElem?_drop] at hj
              have h4 : ((publicSig f).map Prod.fst)[i]? = ((publicSig f).map Prod.fst)[pos.length + j]? := by
                rw [List.getElem?_map, List.getElem?_map, hpi, hj]
                simp only [Option.map_some, Option.some.injEq]
                rw [hpn, hqn]
              have hlt2 : i < ((publicSig f).map Prod.fst).length := by
                rw [List.length_map]
                exact (List.getElem?_eq_some_iff.1 hpi).1
              have := (List.getElem?_inj hlt2 hnd).1 h4
              omega
            rw [hval i p hpi hle, hpn]
            have : kw.lookup name = some v := by
              cases h5 : kw.lookup name with
              | none =>
                rw [List.lookup_eq_none_iff] at h5
                have := h5 _ hv
                simp at this
              | some w =>
                rw [List.lookup_eq_some_iff] at h5
                obtain ⟨l, r, h6, _⟩ := h5
                have hm : (name, w) ∈ kw := by rw [h6]; simp
                have h7 := List.inj_on_of_nodup_map hacc.nodup hm hv rfl
                rw [(Prod.mk.inj h7).2]
            rw [this, Option.some_or]
          · obtain ⟨p, hpi, hpn⟩ := hp i name hi
            rw [hval i p hpi hle, hpn]
            have : kw.lookup name = none := by
              rw [List.lookup_eq_none_iff]
              rintro ⟨a, b⟩ hq
              by_contra hc
              have : name = a := by simpa using hc
              exact hno b (by rw [this]; exact hq)
            rw [this, Option.none_or, ← hpn]
            exact publicSig_default f p (List.mem_of_getElem? hpi)

end FBE
