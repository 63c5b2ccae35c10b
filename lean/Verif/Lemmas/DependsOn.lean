import Verif.Lemmas.EvalFeeds

/-! The effect of `depends_on` on the meaning of a graph. -/

namespace Verif
open Spec Relation
variable {Op V E W : Type}

namespace Eval
open Graph
variable {f : Op → List (OpInput V) → Option (Except E (List V))} {shapeOf : V → List Nat}

theorem redirect_isOp {g g' : Graph Op} {x : Nat} {deps : List Nat} (h : Redirect g g' x deps) {a : Nat} (ha : a < g.nodes.length) :
    IsOp g' a ↔ IsOp g a := by
  obtain ⟨nx, i0, rest, hx, hin, hx', nc, hnc, hci, _⟩ := h.node
  unfold IsOp
  by_cases h1 : a = x
  · subst h1
    rw [hx', hx]
    constructor
    · rintro ⟨n, hn, h2, h3⟩; cases hn; exact ⟨nx, rfl, h2, h3⟩
    · rintro ⟨n, hn, h2, h3⟩; cases hn; exact ⟨_, rfl, h2, h3⟩
  · rw [h.other a h1 (by omega)]

theorem redirect_inputIs {g g' : Graph Op} {x : Nat} {deps : List Nat} (h : Redirect g g' x deps) {feeds : List (Feed V)} {env : List V}
    {cv : Nat → Except E (List V)} {i : Incoming} (hi : i.id < g.nodes.length) {r : Except E (OpInput V)} :
    InputIs shapeOf g feeds env cv i r → InputIs shapeOf g' feeds env cv i r := by
  obtain ⟨nx, i0, rest, hx, hin, hx', nc, hnc, hci, _⟩ := h.node
  intro hr
  cases hr with
  | placeholder hn hf =>
    by_cases h1 : i.id = x
    · rw [h1] at hn; rw [hx] at hn; cases hn
      obtain ⟨nm, d, a1, a2, a3, a4⟩ := hf
      exact .placeholder ((congrArg (g'.nodes[·]?) h1).trans hx') ⟨nm, d, a1, a2, a3, a4⟩
    · exact .placeholder (by rw [h.other _ h1 (by omega)]; exact hn) hf
  | variable_ hn hp hv ha =>
    by_cases h1 : i.id = x
    · rw [h1] at hn; rw [hx] at hn; cases hn
      exact .variable_ ((congrArg (g'.nodes[·]?) h1).trans hx') hp hv ha
    · exact .variable_ (by rw [h.other _ h1 (by omega)]; exact hn) hp hv ha
  | result ho h1 h2 => exact .result ((redirect_isOp h hi).2 ho) h1 h2
  | failed ho h1 => exact .failed ((redirect_isOp h hi).2 ho) h1

theorem redirect_inputsAre {g g' : Graph Op} {x : Nat} {deps : List Nat} (h : Redirect g g' x deps) {feeds : List (Feed V)} {env : List V}
    {cv : Nat → Except E (List V)} {is : List Incoming} {r : Except E (List (OpInput V))}
    (hr : InputsAre shapeOf g feeds env cv is r) (hi : ∀ i ∈ is, i.id < g.nodes.length) : InputsAre shapeOf g' feeds env cv is r := by
  induction hr with
  | nil => exact .nil
  | cons a _ ih => exact .cons (redirect_inputIs h (hi _ (by simp)) a) (ih (fun j hj => hi j (by simp [hj])))
  | later a _ ih => exact .later (redirect_inputIs h (hi _ (by simp)) a) (ih (fun j hj => hi j (by simp [hj])))
  | first a => exact .first (redirect_inputIs h (hi _ (by simp)) a)

theorem inputIs_cv_congr {g : Graph Op} {feeds : List (Feed V)} {env : List V} {cv cv' : Nat → Except E (List V)} {i : Incoming}
    (hcv : cv i.id = cv' i.id) {r : Except E (OpInput V)} (hr : InputIs shapeOf g feeds env cv i r) :
    InputIs shapeOf g feeds env cv' i r := by
  cases hr with
  | placeholder hn hf => exact .placeholder hn hf
  | variable_ hn hp hv ha => exact .variable_ hn hp hv ha
  | result ho h1 h2 => exact .result ho (hcv ▸ h1) h2
  | failed ho h1 => exact .failed ho (hcv ▸ h1)

theorem inputsAre_cv_congr {g : Graph Op} {feeds : List (Feed V)} {env : List V} {cv cv' : Nat → Except E (List V)} {is : List Incoming}
    {r : Except E (List (OpInput V))} (hr : InputsAre shapeOf g feeds env cv is r) (hcv : ∀ i ∈ is, cv i.id = cv' i.id) :
    InputsAre shapeOf g feeds env cv' is r := by
  induction hr with
  | nil => exact .nil
  | cons a _ ih => exact .cons (inputIs_cv_congr (hcv _ (by simp)) a) (ih (fun j hj => hcv j (by simp [hj])))
  | later a _ ih => exact .later (inputIs_cv_congr (hcv _ (by simp)) a) (ih (fun j hj => hcv j (by simp [hj])))
  | first a => exact .first (inputIs_cv_congr (hcv _ (by simp)) a)

/-- Tensors that do not depend on the redirected tensor keep their meaning. -/
theorem redirect_means_other {g g' : Graph Op} (hc : Closed g) {x : Nat} {deps : List Nat} (h : Redirect g g' x deps)
    {feeds : List (Feed V)} {env : List V} {id : Nat} {r : Except E (List V)} (hm : Means f shapeOf g feeds env id r)
    (hno : ¬ DependsOnRefl g id x) : Means f shapeOf g' feeds env id r := by
  have hlt : ∀ {a : Nat} {n : Node Op}, g.nodes[a]? = some n → a < g.nodes.length := fun hn => (List.getElem?_eq_some_iff.1 hn).1
  induction hm with
  | @run id n r cv xs hn ho hb hin hf ih =>
    have hne : id ≠ x := by rintro rfl; exact hno .refl
    have hn' : g'.nodes[id]? = some n := by
      have := hlt hn
      rw [h.other _ hne (by omega)]; exact hn
    refine .run hn' ((redirect_isOp h (hlt hn)).2 ho) ?_ (redirect_inputsAre h hin (hc _ _ hn)) hf
    rintro b ⟨⟨m, hm, i, hi, rfl⟩, hbo⟩
    rw [hn'] at hm; cases hm
    have hu : Uses g id i.id := ⟨⟨n, hn, i, hi, rfl⟩, (redirect_isOp h (hc _ _ hn i hi)).1 hbo⟩
    exact ih _ hu (fun hd => hno (.head hu.1 hd))
  | @fail id n e cv hn ho hb hin ih =>
    have hne : id ≠ x := by rintro rfl; exact hno .refl
    have hn' : g'.nodes[id]? = some n := by
      have := hlt hn
      rw [h.other _ hne (by omega)]; exact hn
    refine .fail hn' ((redirect_isOp h (hlt hn)).2 ho) ?_ (redirect_inputsAre h hin (hc _ _ hn))
    rintro b ⟨⟨m, hm, i, hi, rfl⟩, hbo⟩
    rw [hn'] at hm; cases hm
    have hu : Uses g id i.id := ⟨⟨n, hn, i, hi, rfl⟩, (redirect_isOp h (hc _ _ hn i hi)).1 hbo⟩
    exact ih _ hu (fun hd => hno (.head hu.1 hd))

/-- The inputs of the control node made from the dependencies. -/
theorem deps_inputs {g g' : Graph Op} (hc : Closed g) {x : Nat} {deps : List Nat} (h : Redirect g g' x deps)
    {feeds : List (Feed V)} {env : List V} (cv : Nat → Except E (List V))
    (hcv : ∀ a r, Means f shapeOf g feeds env a r → cv a = r) (hnb : ∀ (id : Nat) (n : Node Op), g.nodes[id]? = some n →
      n.placeholderName = none ∨ n.variableId = none) :
    ∀ (ds : List Nat), (∀ d ∈ ds, d < g.nodes.length) → (∀ d ∈ ds, ∃ v, TargetMeans f shapeOf g feeds env d (.ok v)) →
      ∃ xs, InputsAre shapeOf g' feeds env cv (ds.map (fun d => ({ id := d } : Incoming))) (.ok xs)
  | [], _, _ => ⟨[], .nil⟩
  | d :: ds, hl, hm => by
    obtain ⟨xs, hxs⟩ := deps_inputs hc h cv hcv hnb ds (fun e he => hl e (by simp [he])) (fun e he => hm e (by simp [he]))
    obtain ⟨v, hv⟩ := hm d (by simp)
    have hdl := hl d (by simp)
    have : ∃ y, InputIs shapeOf g feeds env cv ({ id := d } : Incoming) (.ok y) := by
      cases hv with
      | placeholder hn hvv hf => exact ⟨_, .placeholder hn hf⟩
      | variable_ hn hvv ha =>
        refine ⟨_, .variable_ hn ?_ hvv ha⟩
        rcases hnb _ _ hn with h1 | h1
        · exact h1
        · rw [hvv] at h1; cases h1
      | result hms hy => exact ⟨_, .result (means_isOp hms) (hcv _ _ hms) hy⟩
    obtain ⟨y, hy⟩ := this
    exact ⟨y :: xs, .cons (redirect_inputIs h hdl hy) hxs⟩

open Classical in
/-- All meanings survive `depends_on`, if the dependencies succeed and do not depend on the tensor. -/
theorem redirect_means {g g' : Graph Op} (hw : WF g) {x : Nat} {deps : List Nat} {cop : Op} (h : Redirect g g' x deps)
    (hcop : ∃ nc : Node Op, g'.nodes[g.nodes.length]? = some nc ∧ nc.op = cop)
    (hcf : ∀ y ys, f cop (y :: ys) = some (.ok [y.val]))
    {feeds : List (Feed V)} {env : List V}
    (hdeps : ∀ d ∈ deps, ∃ v, TargetMeans f shapeOf g feeds env d (.ok v))
    (hacyc : ∀ d ∈ deps, ¬ DependsOnRefl g d x)
    (hx0 : ∀ (nx : Node Op) i0 rest, g.nodes[x]? = some nx → nx.incoming = i0 :: rest → i0.selector = 0 ∧ i0.allowMut = false ∧
      ¬ DependsOnRefl g i0.id x ∧
      (∀ xs xs' : List (OpInput V), xs.map OpInput.val = xs'.map OpInput.val → f nx.op xs = f nx.op xs'))
    {id : Nat} {r : Except E (List V)} (hm : Means f shapeOf g feeds env id r) : Means f shapeOf g' feeds env id r := by
  have hc := hw.closed
  have hlt : ∀ {a : Nat} {n : Node Op}, g.nodes[a]? = some n → a < g.nodes.length := fun hn => (List.getElem?_eq_some_iff.1 hn).1
  obtain ⟨nx, i0, rest, hx, hin0, hx', nc, hnc, hci, hcv1, hcp1, _⟩ := h.node
  obtain ⟨nc', hnc', hop⟩ := hcop
  rw [hnc] at hnc'; cases hnc'
  obtain ⟨hsel, hmut, hi0x, hval⟩ := hx0 nx i0 rest hx hin0
  have hi0 : ({ id := i0.id } : Incoming) = i0 := by cases i0; simp at hsel hmut; simp [hsel, hmut]
  have hi0l : i0.id < g.nodes.length := hc _ _ hx i0 (by simp [hin0])
  have hcop' : IsOp g' g.nodes.length := ⟨nc, hnc, hcp1, hcv1⟩
  -- meanings as a total function
  let cvt : Nat → Except E (List V) := fun a => if hh : ∃ r, Means f shapeOf g feeds env a r then hh.choose else .ok []
  have hcvt : ∀ a r, Means f shapeOf g feeds env a r → cvt a = r := by
    intro a r ha
    have hh : ∃ r, Means f shapeOf g feeds env a r := ⟨r, ha⟩
    simp only [cvt, dif_pos hh]
    exact means_unique hh.choose_spec ha
  obtain ⟨ds, hds⟩ := deps_inputs hc h cvt hcvt hw.notBoth deps h.closedDeps hdeps
  -- what the control node uses has the same meaning in the new graph
  have hctrlUses : (∀ (_ : IsOp g i0.id), ∃ r, Means f shapeOf g feeds env i0.id r) →
      ∀ b, Uses g' g.nodes.length b → Means f shapeOf g' feeds env b (cvt b) := by
    rintro hi0m b ⟨⟨m, hm, i, hi, rfl⟩, hbo⟩
    rw [hnc] at hm; cases hm
    rw [hci] at hi
    rcases List.mem_cons.1 hi with rfl | hi
    · obtain ⟨r, hr⟩ := hi0m ((redirect_isOp h hi0l).1 hbo)
      simp only
      rw [hcvt _ _ hr]
      exact redirect_means_other hc h hr hi0x
    · obtain ⟨d, hd, rfl⟩ := List.mem_map.1 hi
      simp only at hbo ⊢
      have hdo := (redirect_isOp h (h.closedDeps d hd)).1 hbo
      obtain ⟨v, hv⟩ := hdeps d hd
      obtain ⟨m, hm, h1, h2⟩ := hdo
      cases hv with
      | placeholder hn _ hf => obtain ⟨_, _, hp, _⟩ := hf; rw [hm] at hn; cases hn; rw [h1] at hp; cases hp
      | variable_ hn hvv => rw [hm] at hn; cases hn; rw [h2] at hvv; cases hvv
      | result hms hy =>
        rw [hcvt _ _ hms]
        exact redirect_means_other hc h hms (hacyc d hd)
  induction hm with
  | @run id n r cv xs hn ho hb hin hf ih =>
    by_cases hid : id = x
    · subst hid
      rw [hx] at hn; cases hn
      rw [hin0] at hin
      cases hin with
      | @cons _ _ y ys hy hys =>
        -- the control node passes its first input on
        have hyt : InputIs shapeOf g feeds env cvt i0 (.ok y) := by
          cases hy with
          | placeholder a b => exact .placeholder a b
          | variable_ a b c d => exact .variable_ a b c d
          | result a b c =>
            refine .result a ?_ c
            rw [hcvt _ _ (hb _ ⟨⟨nx, hx, i0, by simp [hin0], rfl⟩, a⟩)]; exact b
        have hctrl : Means f shapeOf g' feeds env g.nodes.length (.ok [y.val]) := by
          refine .run (cv := cvt) (xs := y :: ds) hnc hcop' (hctrlUses ?_) ?_ ?_
          · intro hio; exact ⟨_, hb _ ⟨⟨nx, hx, i0, by simp [hin0], rfl⟩, hio⟩⟩
          · rw [hci, hi0]; exact .cons (redirect_inputIs h hi0l hyt) hds
          · rw [hop]; exact hcf y ds
        refine .run (cv := fun a => if a = g.nodes.length then .ok [y.val] else cv a) (xs := ⟨.nonVariable, y.val⟩ :: ys) hx'
          ((redirect_isOp h (hlt hx)).2 ho) ?_ ?_ ?_
        · rintro b ⟨⟨m, hm, i, hi, rfl⟩, hbo⟩
          rw [hx'] at hm; cases hm
          rcases List.mem_cons.1 hi with rfl | hi
          · simp only [if_true]; exact hctrl
          · have hil := hc _ _ hx i (by simp [hin0, hi])
            rw [if_neg (by omega)]
            exact ih _ ⟨⟨nx, hx, i, by simp [hin0, hi], rfl⟩, (redirect_isOp h hil).1 hbo⟩
        · refine .cons (.result hcop' (ys := [y.val]) (by simp) (by simp [hsel])) ?_
          have h1 := redirect_inputsAre h hys (fun i hi => hc _ _ hx i (by simp [hin0, hi]))
          refine inputsAre_cv_congr h1 ?_
          intro i hi
          have := hc _ _ hx i (by simp [hin0, hi])
          rw [if_neg (by omega)]
        · rw [← hf]; exact hval _ _ (by simp)
    · have hn' : g'.nodes[id]? = some n := by
        have := hlt hn
        rw [h.other _ hid (by omega)]; exact hn
      refine .run hn' ((redirect_isOp h (hlt hn)).2 ho) ?_ (redirect_inputsAre h hin (hc _ _ hn)) hf
      rintro b ⟨⟨m, hm, i, hi, rfl⟩, hbo⟩
      rw [hn'] at hm; cases hm
      exact ih _ ⟨⟨n, hn, i, hi, rfl⟩, (redirect_isOp h (hc _ _ hn i hi)).1 hbo⟩
  | @fail id n e cv hn ho hb hin ih =>
    by_cases hid : id = x
    · subst hid
      rw [hx] at hn; cases hn
      rw [hin0] at hin
      cases hin with
      | first hy =>
        have hyt : InputIs shapeOf g feeds env cvt i0 (.error e) := by
          cases hy with
          | failed a b =>
            refine .failed a ?_
            rw [hcvt _ _ (hb _ ⟨⟨nx, hx, i0, by simp [hin0], rfl⟩, a⟩)]; exact b
        have hctrl : Means f shapeOf g' feeds env g.nodes.length (.error e) := by
          refine .fail (cv := cvt) hnc hcop' (hctrlUses ?_) ?_
          · intro hio; exact ⟨_, hb _ ⟨⟨nx, hx, i0, by simp [hin0], rfl⟩, hio⟩⟩
          · rw [hci, hi0]; exact .first (redirect_inputIs h hi0l hyt)
        refine .fail (cv := fun a => if a = g.nodes.length then .error e else cv a) hx'
          ((redirect_isOp h (hlt hx)).2 ho) ?_ ?_
        · rintro b ⟨⟨m, hm, i, hi, rfl⟩, hbo⟩
          rw [hx'] at hm; cases hm
          rcases List.mem_cons.1 hi with rfl | hi
          · simp only [if_true]; exact hctrl
          · have hil := hc _ _ hx i (by simp [hin0, hi])
            rw [if_neg (by omega)]
            exact ih _ ⟨⟨nx, hx, i, by simp [hin0, hi], rfl⟩, (redirect_isOp h hil).1 hbo⟩
        · exact .first (.failed hcop' (by simp))
      | @later _ _ y _ hy hys =>
        have hyt : InputIs shapeOf g feeds env cvt i0 (.ok y) := by
          cases hy with
          | placeholder a b => exact .placeholder a b
          | variable_ a b c d => exact .variable_ a b c d
          | result a b c =>
            refine .result a ?_ c
            rw [hcvt _ _ (hb _ ⟨⟨nx, hx, i0, by simp [hin0], rfl⟩, a⟩)]; exact b
        have hctrl : Means f shapeOf g' feeds env g.nodes.length (.ok [y.val]) := by
          refine .run (cv := cvt) (xs := y :: ds) hnc hcop' (hctrlUses ?_) ?_ ?_
          · intro hio; exact ⟨_, hb _ ⟨⟨nx, hx, i0, by simp [hin0], rfl⟩, hio⟩⟩
          · rw [hci, hi0]; exact .cons (redirect_inputIs h hi0l hyt) hds
          · rw [hop]; exact hcf y ds
        refine .fail (cv := fun a => if a = g.nodes.length then .ok [y.val] else cv a) hx'
          ((redirect_isOp h (hlt hx)).2 ho) ?_ ?_
        · rintro b ⟨⟨m, hm, i, hi, rfl⟩, hbo⟩
          rw [hx'] at hm; cases hm
          rcases List.mem_cons.1 hi with rfl | hi
          · simp only [if_true]; exact hctrl
          · have hil := hc _ _ hx i (by simp [hin0, hi])
            rw [if_neg (by omega)]
            exact ih _ ⟨⟨nx, hx, i, by simp [hin0, hi], rfl⟩, (redirect_isOp h hil).1 hbo⟩
        · refine .later (.result hcop' (ys := [y.val]) (y := y.val) (by simp) (by simp [hsel])) ?_
          have h1 := redirect_inputsAre h hys (fun i hi => hc _ _ hx i (by simp [hin0, hi]))
          refine inputsAre_cv_congr h1 ?_
          intro i hi
          have := hc _ _ hx i (by simp [hin0, hi])
          rw [if_neg (by omega)]
    · have hn' : g'.nodes[id]? = some n := by
        have := hlt hn
        rw [h.other _ hid (by omega)]; exact hn
      refine .fail hn' ((redirect_isOp h (hlt hn)).2 ho) ?_ (redirect_inputsAre h hin (hc _ _ hn))
      rintro b ⟨⟨m, hm, i, hi, rfl⟩, hbo⟩
      rw [hn'] at hm; cases hm
      exact ih _ ⟨⟨n, hn, i, hi, rfl⟩, (redirect_isOp h (hc _ _ hn i hi)).1 hbo⟩

end Eval
end Verif
