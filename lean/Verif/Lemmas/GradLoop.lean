import Verif.Lemmas.GradInit
import Mathlib.Algebra.BigOperators.Group.List.Basic
import Mathlib.Algebra.BigOperators.Group.Finset.Basic
import Mathlib.Algebra.Group.Hom.Basic
import Mathlib.Algebra.Group.Hom.Instances

/-! # The main loop of back-propagation -/

namespace Verif.Gradient
open Verif Verif.Spec Verif.Graph Relation
variable {Op : Type}

/-! ## Growing graphs -/

theorem grows_refl (g : Graph Op) : Grows g g := ⟨fun _ _ h => h, id⟩
theorem _root_.Verif.Spec.Grows.trans {a b c : Graph Op} (h1 : Grows a b) (h2 : Grows b c) : Grows a c :=
  ⟨fun i n h => h2.1 i n (h1.1 i n h), fun h => h2.2 (h1.2 h)⟩

theorem build_grows {g g' : Graph Op} {b : Builder} {op : Op} {t : Nat} (h : g.build b op = .ok (g', t)) : Grows g g' := by
  have hlt := build_inputs_lt h
  obtain ⟨r, _, _, _, _, e⟩ := build_ok h
  refine ⟨fun i n hi => ?_, fun hc => ?_⟩
  · rw [e, List.getElem?_append_left (List.getElem?_eq_some_iff.1 hi).1]; exact hi
  · intro id n hn i hi
    rw [e] at hn
    have hlen : g'.nodes.length = g.nodes.length + 1 := by rw [e]; simp
    rcases Nat.lt_trichotomy id g.nodes.length with h1 | h1 | h1
    · rw [List.getElem?_append_left h1] at hn
      have := hc id n hn i hi
      omega
    · rw [h1, List.getElem?_append_right (Nat.le_refl _)] at hn
      simp at hn
      subst hn
      have := hlt i hi
      omega
    · rw [List.getElem?_eq_none (by simp; omega)] at hn; cases hn

theorem build_node {g g' : Graph Op} {b : Builder} {op : Op} {t : Nat} (h : g.build b op = .ok (g', t)) :
    ∃ r, g'.nodes[t]? = some (b.toNode op r) := by
  obtain ⟨r, _, _, rfl, _, e⟩ := build_ok h
  exact ⟨r, by rw [e]; simp⟩

theorem shapeTensor_ok {O : GradOps Op} {g g' : Graph Op} {x s : Nat} (h : shapeTensor O g x = .ok (g', s)) :
    Grows g g' ∧ ∃ n, g.nodes[x]? = some n ∧ (n.shape = some s ∨ IsApp g' s O.shapeOp [x]) := by
  simp only [shapeTensor, bind_ok] at h
  obtain ⟨n, hn, h⟩ := h
  have hn' := access_some.1 hn
  cases hs : n.shape with
  | some s' =>
    simp only [hs, Except.ok.injEq, Prod.mk.injEq] at h
    obtain ⟨rfl, rfl⟩ := h
    exact ⟨grows_refl _, n, hn', .inl hs⟩
  | none =>
    simp only [hs] at h
    obtain ⟨r, hr⟩ := build_node h
    exact ⟨build_grows h, n, hn', .inr ⟨_, hr, rfl, rfl, rfl, rfl⟩⟩

theorem addN_ok {O : GradOps Op} {g g' : Graph Op} {x s : Nat} {xs : List Nat} (h : addN O g x xs = .ok (g', s)) :
    Grows g g' ∧ (xs = [] ∧ g' = g ∧ s = x ∨ IsApp g' s O.addN (x :: xs)) := by
  cases xs with
  | nil => simp only [addN] at h; cases h; exact ⟨grows_refl _, .inl ⟨rfl, rfl, rfl⟩⟩
  | cons a as =>
    simp only [addN, bind_ok] at h
    obtain ⟨⟨g1, s1⟩, h1, h2⟩ := h
    obtain ⟨r, hr⟩ := build_node h2
    exact ⟨(shapeTensor_ok h1).1.trans (build_grows h2), .inr ⟨_, hr, rfl, rfl, rfl, rfl⟩⟩

theorem zerosLike_ok {O : GradOps Op} {g g' : Graph Op} {x z : Nat} (h : zerosLike O g x = .ok (g', z)) :
    Grows g g' ∧ ∃ n s, g.nodes[x]? = some n ∧ IsApp g' z O.zeros [s] ∧ (n.shape = some s ∨ IsApp g' s O.shapeOp [x]) := by
  simp only [zerosLike, bind_ok] at h
  obtain ⟨⟨g1, s⟩, h1, h2⟩ := h
  obtain ⟨hg1, n, hn, hs⟩ := shapeTensor_ok h1
  obtain ⟨r, hr⟩ := build_node h2
  refine ⟨hg1.trans (build_grows h2), n, s, hn, ⟨_, hr, rfl, rfl, rfl, rfl⟩, hs.imp_right ?_⟩
  rintro ⟨m, h3, h4⟩
  exact ⟨m, (build_grows h2).1 _ _ h3, h4⟩

theorem scalarOne_ok {O : GradOps Op} {g g' : Graph Op} {t : Nat} (h : scalarOne O g = .ok (g', t)) :
    Grows g g' ∧ IsApp g' t O.one [] := by
  simp only [scalarOne, bind_ok] at h
  obtain ⟨⟨g1, s⟩, h1, ⟨g2, c⟩, h2, h3⟩ := h
  obtain ⟨r, hr⟩ := build_node h3
  exact ⟨((build_grows h1).trans (build_grows h2)).trans (build_grows h3), _, hr, rfl, rfl, rfl, rfl⟩

theorem sumAll_ok {O : GradOps Op} {g g' : Graph Op} {y t : Nat} (h : sumAll O g y = .ok (g', t)) :
    Grows g g' ∧ IsApp g' t O.sumAll [y] ∧ t = g.nodes.length := by
  obtain ⟨r, hr⟩ := build_node h
  obtain ⟨_, _, _, ht, _⟩ := build_ok h
  exact ⟨build_grows h, ⟨_, hr, rfl, rfl, rfl, rfl⟩, ht⟩

/-! ## Ranks in the original graph -/

/-- The rank of a tensor of the original graph. -/
def rk (g : Graph Op) (k : Nat) : Nat := match g.nodes[k]? with
  | some n => n.topoRank
  | none => 0

theorem rk_eq {g : Graph Op} {k : Nat} {n : Node Op} (h : g.nodes[k]? = some n) : rk g k = n.topoRank := by
  simp [rk, h]

theorem rk_lt {g : Graph Op} (hg : BpDag g) {a b : Nat} (h : BpInput g a b) : rk g b < rk g a := by
  obtain ⟨n, hn, i, hi, rfl⟩ := h
  obtain ⟨m, hm, hlt⟩ := (hg a n hn).2 i hi
  rw [rk_eq hn, rk_eq hm]; exact hlt

theorem rk_lt_trans {g : Graph Op} (hg : BpDag g) {a b : Nat} (h : TransGen (BpInput g) a b) : rk g b < rk g a := by
  induction h with
  | single h => exact rk_lt hg h
  | tail _ h ih => exact Nat.lt_trans (rk_lt hg h) ih

theorem _root_.Verif.Spec.GradSound.on {ε : Type} {K : Calculus Op} {g0 : Graph Op} {D D' : Nat → Prop} {addN zeros shapeOp : Op}
    {opGrad : Op → Graph Op → Nat → Nat → Except ε (Graph Op × List (Option Nat))} (h : GradSound K g0 D addN zeros shapeOp opGrad)
    (hD : ∀ n, D' n → D n) : GradSound K g0 D' addN zeros shapeOp opGrad :=
  ⟨h.mono, h.addN, h.zeros, h.lin_zero, fun hn => h.opGrad (hD _ hn)⟩

/-! ## Tensors that do not move -/

variable {K : Calculus Op} {g0 : Graph Op} {O : GradOps Op} {ys xs : List Nat}

theorem moved_zero_off (hS : GradSound K g0 (ReachedFrom g0 ys) O.addN O.zeros O.shapeOp O.opGrad) (hg : BpDag g0) {X : Finset Nat}
    (hX : Independent g0 ys xs X) {t : ∀ n, K.T n} (ht : MovedBy K g0 X t) :
    ∀ (r k : Nat), rk g0 k = r → ¬ Leads g0 xs k → t k = 0 := by
  intro r
  induction r using Nat.strong_induction_on with
  | _ r ih =>
    intro k hr hl
    have hkX : k ∉ X := fun h => hl (.here (hX.diff k h) (hX.sub k h))
    by_cases hd : IsDiff g0 k
    · by_cases hs : IsSource g0 k
      · exact ht.fixed k hkX (.inr hs)
      · rw [ht.op k hkX hd hs]
        obtain ⟨n, hn, _⟩ := id hd
        refine hS.lin_zero hn fun i hi => ?_
        have hb : BpInput g0 k i.id := ⟨n, hn, i, hi, rfl⟩
        exact ih _ (hr ▸ rk_lt hg hb) _ rfl (fun h => hl (.there hd hb h))
    · exact ht.fixed k hkX (.inl hd)

theorem moved_zero_below (hS : GradSound K g0 (ReachedFrom g0 ys) O.addN O.zeros O.shapeOp O.opGrad) (hg : BpDag g0) {X : Finset Nat}
    {t : ∀ n, K.T n} (ht : MovedBy K g0 X t) :
    ∀ (r k : Nat), rk g0 k = r → (∀ x ∈ X, ¬ ReflTransGen (BpInput g0) k x) → t k = 0 := by
  intro r
  induction r using Nat.strong_induction_on with
  | _ r ih =>
    intro k hr hl
    have hkX : k ∉ X := fun h => hl k h .refl
    by_cases hd : IsDiff g0 k
    · by_cases hs : IsSource g0 k
      · exact ht.fixed k hkX (.inr hs)
      · rw [ht.op k hkX hd hs]
        obtain ⟨n, hn, _⟩ := id hd
        refine hS.lin_zero hn fun i hi => ?_
        have hb : BpInput g0 k i.id := ⟨n, hn, i, hi, rfl⟩
        exact ih _ (hr ▸ rk_lt hg hb) _ rfl (fun x hx h => hl x hx (.head hb h))
    · exact ht.fixed k hkX (.inl hd)

/-! ## The invariant -/

/-- Sum of the represented functions at the tangent. -/
def weight (K : Calculus Op) (C : ∀ k, List (K.T k →+ K.R)) (t : ∀ n, K.T n) (k : Nat) : K.R := ((C k).map (fun c => c (t k))).sum

/-- Loop invariant. `C` are the functions represented by the gradients in the map, `φ` the contributions that are still to be registered,
`pend m x` that popped tensor `m` has not yet registered its gradient of `x`. -/
structure BpInv (K : Calculus Op) (g0 : Graph Op) (ys xs : List Nat) (cy : ∀ k, K.T k →+ K.R) (g : Graph Op) (m : GMap) (heap log : List Nat)
    (C : ∀ k, List (K.T k →+ K.R)) (φ : (∀ n, K.T n) → K.R) (pend : Nat → Nat → Prop) : Prop where
  grows : Grows g0 g
  entry : ∀ k info, m k = some info → (info.onPath = true ↔ Leads g0 xs k) ∧ List.Forall₂ (K.Rep g k) info.gradients (C k) ∧
    ∃ n, g0.nodes[k]? = some n ∧ (n.differentiable = true → ∀ i ∈ n.bpInputs, (m i.id).isSome)
  empty : ∀ k, m k = none → C k = []
  reached : ∀ k info, m k = some info → ReachedFrom g0 ys k
  onPath : ∀ k info, m k = some info → info.gradients ≠ [] → Leads g0 xs k ∨ k ∈ ys
  heapNodup : heap.Nodup
  heapIn : ∀ k ∈ heap, IsDiff g0 k ∧ (k ∈ ys ∨ Leads g0 xs k ∧ ¬ IsSource g0 k) ∧ ∃ info, m k = some info ∧ info.gradients ≠ []
  seen : ∀ k info, m k = some info → info.gradients ≠ [] → k ∈ heap ∨ k ∈ log ∨ IsSource g0 k
  logRank : ∀ k ∈ log, ∀ h ∈ heap, rk g0 h ≤ rk g0 k
  logHeap : ∀ k ∈ log, k ∉ heap
  logNodup : log.Nodup
  logIn : ∀ k ∈ log, IsDiff g0 k ∧ (k ∈ ys ∨ Leads g0 xs k)
  logSorted : log.Pairwise (fun a b => rk g0 b ≤ rk g0 a)
  single : ∀ x, x ∉ ys → UsedOnce g0 x → ∀ info, m x = some info → info.gradients.length ≤ 1 ∧
    (info.gradients ≠ [] → ∃ k ∈ log, BpInput g0 k x ∧ ¬ pend k x)
  eqn : ∀ X, Independent g0 ys xs X → ∀ t, MovedBy K g0 X t →
    (ys.map (fun y => cy y (t y))).sum = (∑ k ∈ heap.toFinset ∪ X, weight K C t k) + φ t

/-- Adding one represented function to the ghost lists. -/
def addC (C : ∀ k, List (K.T k →+ K.R)) (j : Nat) (c : K.T j →+ K.R) : (k : Nat) → List (K.T k →+ K.R) :=
  Function.update C j (C j ++ [c])

theorem addC_self (C : ∀ k, List (K.T k →+ K.R)) (j : Nat) (c : K.T j →+ K.R) : addC C j c j = C j ++ [c] := by
  simp [addC]

theorem addC_ne (C : ∀ k, List (K.T k →+ K.R)) {j k : Nat} (c : K.T j →+ K.R) (h : k ≠ j) : addC C j c k = C k := by
  simp [addC, h]

theorem weight_addC_self (C : ∀ k, List (K.T k →+ K.R)) (j : Nat) (c : K.T j →+ K.R) (t : ∀ n, K.T n) :
    weight K (addC C j c) t j = weight K C t j + c (t j) := by
  simp [weight, addC_self]

theorem weight_addC_ne (C : ∀ k, List (K.T k →+ K.R)) {j k : Nat} (c : K.T j →+ K.R) (t : ∀ n, K.T n) (h : k ≠ j) :
    weight K (addC C j c) t k = weight K C t k := by
  simp [weight, addC_ne C c h]

theorem sum_addC_mem (C : ∀ k, List (K.T k →+ K.R)) (j : Nat) (c : K.T j →+ K.R) (t : ∀ n, K.T n) (S : Finset Nat) (h : j ∈ S) :
    ∑ k ∈ S, weight K (addC C j c) t k = (∑ k ∈ S, weight K C t k) + c (t j) := by
  rw [← Finset.add_sum_erase _ _ h, ← Finset.add_sum_erase S (weight K C t) h, weight_addC_self,
    Finset.sum_congr rfl (fun k hk => weight_addC_ne C c t (Finset.ne_of_mem_erase hk))]
  rw [add_right_comm]

theorem sum_addC_notMem (C : ∀ k, List (K.T k →+ K.R)) (j : Nat) (c : K.T j →+ K.R) (t : ∀ n, K.T n) (S : Finset Nat) (h : j ∉ S) :
    ∑ k ∈ S, weight K (addC C j c) t k = ∑ k ∈ S, weight K C t k :=
  Finset.sum_congr rfl (fun _ hk => weight_addC_ne C c t (fun e => h (e ▸ hk)))

/-- One registered gradient. -/
theorem push_inv (hg : BpDag g0) {cy : ∀ k, K.T k →+ K.R} {y : Nat} {n : Node Op}
    (hn : g0.nodes[y]? = some n) {g : Graph Op} {log : List Nat} (hyl : ∀ k ∈ log, rk g0 y ≤ rk g0 k) (hyIn : y ∈ log)
    {dn is : List Incoming} {i : Incoming} (hbp : n.bpInputs = dn ++ i :: is) {m : GMap} {heap : List Nat}
    {C : ∀ k, List (K.T k →+ K.R)} {φ : (∀ n, K.T n) → K.R} {c : K.T i.id →+ K.R} {h : Nat} (hrep : K.Rep g i.id h c)
    (hI : BpInv K g0 ys xs cy g m heap log C (fun t => c (t i.id) + φ t) (fun k x => k = y ∧ ¬ ∃ j ∈ dn, j.id = x))
    {info : Info} (hm : m i.id = some info) (hp : info.onPath = true) {nx : Node Op} (hnx : g0.nodes[i.id]? = some nx) :
    BpInv K g0 ys xs cy g (m.insert i.id { info with gradients := info.gradients ++ [h] })
      (if !nx.isSource && info.gradients.isEmpty then i.id :: heap else heap) log (addC C i.id c) φ
      (fun k x => k = y ∧ ¬ ∃ j ∈ dn ++ [i], j.id = x) := by
  have hby : BpInput g0 y i.id := ⟨n, hn, i, by simp [hbp], rfl⟩
  have hlt := rk_lt hg hby
  have hnl : i.id ∉ log := fun hl => by have := hyl _ hl; omega
  obtain ⟨hle, hrl, nn, hnn, hdom⟩ := hI.entry _ _ hm
  rw [hnx] at hnn; cases hnn
  have hleads := hle.1 hp
  have hcond : (!nx.isSource && info.gradients.isEmpty) = true ↔ ¬ IsSource g0 i.id ∧ info.gradients = [] := by
    rw [isSource_iff hnx]; simp [Node.isSource]
  have hins : ∀ k info', (m.insert i.id { info with gradients := info.gradients ++ [h] }) k = some info' →
      (k = i.id ∧ info' = { info with gradients := info.gradients ++ [h] }) ∨ (k ≠ i.id ∧ m k = some info') := by
    intro k info' hk
    unfold GMap.insert at hk
    split at hk
    · cases hk; exact .inl ⟨by assumption, rfl⟩
    · exact .inr ⟨by assumption, hk⟩
  have hsub : ∀ k, k ∈ heap → k ∈ (if !nx.isSource && info.gradients.isEmpty then i.id :: heap else heap) := by
    intro k hk; split
    · simp [hk]
    · exact hk
  have hback : ∀ k, k ∈ (if !nx.isSource && info.gradients.isEmpty then i.id :: heap else heap) →
      k ∈ heap ∨ (k = i.id ∧ ¬ IsSource g0 i.id ∧ info.gradients = []) := by
    intro k hk
    split at hk
    · rename_i hc
      rcases List.mem_cons.1 hk with rfl | hk
      · exact .inr ⟨rfl, hcond.1 hc⟩
      · exact .inl hk
    · exact .inl hk
  refine
    { grows := hI.grows
      entry := ?_, empty := ?_, reached := ?_, onPath := ?_, heapNodup := ?_, heapIn := ?_, seen := ?_, logRank := ?_, logHeap := ?_,
      logNodup := hI.logNodup, logIn := hI.logIn, logSorted := hI.logSorted, single := ?_, eqn := ?_ }
  · intro k info' hk
    rcases hins k info' hk with ⟨rfl, rfl⟩ | ⟨hne, hk⟩
    · refine ⟨hle, ?_, nx, hnx, fun hd j hj => domLe_insert _ _ _ _ (hdom hd j hj)⟩
      rw [addC_self]
      exact List.rel_append hrl (.cons hrep .nil)
    · obtain ⟨h1, h2, n', h3, h4⟩ := hI.entry k info' hk
      refine ⟨h1, ?_, n', h3, fun hd j hj => domLe_insert _ _ _ _ (h4 hd j hj)⟩
      rw [addC_ne _ _ hne]; exact h2
  · intro k hk
    have hne : k ≠ i.id := by rintro rfl; simp [GMap.insert] at hk
    rw [addC_ne _ _ hne]
    simp [GMap.insert, hne] at hk
    exact hI.empty k hk
  · intro k info' hk
    rcases hins k info' hk with ⟨rfl, _⟩ | ⟨_, hk⟩
    · exact hI.reached _ _ hm
    · exact hI.reached k info' hk
  · intro k info' hk hne
    rcases hins k info' hk with ⟨rfl, rfl⟩ | ⟨_, hk⟩
    · exact .inl hleads
    · exact hI.onPath k info' hk hne
  · split
    · rename_i hc
      refine List.nodup_cons.2 ⟨?_, hI.heapNodup⟩
      intro hmem
      obtain ⟨_, _, info', h1, h2⟩ := hI.heapIn _ hmem
      rw [hm] at h1; cases h1
      exact h2 (hcond.1 hc).2
    · exact hI.heapNodup
  · intro k hk
    by_cases hki : k = i.id
    · subst hki
      rcases hback _ hk with hk | ⟨_, h1, _⟩
      · obtain ⟨h1, h2, _⟩ := hI.heapIn _ hk
        exact ⟨h1, h2, _, by simp [GMap.insert]; rfl, by simp⟩
      · exact ⟨leads_diff hleads, .inr ⟨hleads, h1⟩, _, by simp [GMap.insert]; rfl, by simp⟩
    · rcases hback _ hk with hk | ⟨e, _⟩
      · obtain ⟨h1, h2, info', h3, h4⟩ := hI.heapIn _ hk
        exact ⟨h1, h2, info', by simp [GMap.insert, hki, h3], h4⟩
      · exact absurd e hki
  · intro k info' hk hne
    rcases hins k info' hk with ⟨rfl, rfl⟩ | ⟨_, hk⟩
    · by_cases hs : IsSource g0 i.id
      · exact .inr (.inr hs)
      · by_cases he : info.gradients = []
        · left; rw [if_pos (hcond.2 ⟨hs, he⟩)]; simp
        · exact (hI.seen _ _ hm he).imp_left (hsub _)
    · exact (hI.seen k info' hk hne).imp_left (hsub _)
  · intro k hk h' hh'
    rcases hback _ hh' with hh' | ⟨rfl, _⟩
    · exact hI.logRank k hk h' hh'
    · have := hyl k hk; omega
  · intro k hk hk'
    rcases hback _ hk' with hk' | ⟨rfl, _⟩
    · exact hI.logHeap k hk hk'
    · exact hnl hk
  · intro x hxy hx info' hk
    rcases hins x info' hk with ⟨rfl, rfl⟩ | ⟨hne, hk⟩
    · have hemp : info.gradients = [] := by
        by_contra hc
        obtain ⟨k, hkl, hkb, hnp⟩ := (hI.single _ hxy hx _ hm).2 hc
        have := hx.1 _ _ hkb hby
        subst this
        have : ∃ j ∈ dn, j.id = i.id := by
          by_contra hno; exact hnp ⟨rfl, hno⟩
        obtain ⟨j, hj, hji⟩ := this
        exact hx.2 k n dn i is hn hbp rfl j (by simp [hj]) hji
      refine ⟨by simp [hemp], fun _ => ⟨y, hyIn, hby, ?_⟩⟩
      rintro ⟨_, hno⟩
      exact hno ⟨i, by simp, rfl⟩
    · obtain ⟨h1, h2⟩ := hI.single x hxy hx info' hk
      refine ⟨h1, fun hc => ?_⟩
      obtain ⟨k, h3, h4, h5⟩ := h2 hc
      refine ⟨k, h3, h4, ?_⟩
      rintro ⟨rfl, hno⟩
      refine h5 ⟨rfl, ?_⟩
      rintro ⟨j, hj, e⟩
      exact hno ⟨j, by simp [hj], e⟩
  · intro X hX t ht
    rw [hI.eqn X hX t ht]
    have hassoc : ∀ a b d : K.R, a + (b + d) = (a + b) + d := fun a b d => (add_assoc a b d).symm
    rw [hassoc]
    congr 1
    by_cases hj : i.id ∈ heap.toFinset ∪ X
    · have hS' : (if !nx.isSource && info.gradients.isEmpty then i.id :: heap else heap).toFinset ∪ X = heap.toFinset ∪ X := by
        split
        · ext k
          simp only [List.toFinset_cons, Finset.mem_union, Finset.mem_insert]
          constructor
          · rintro ((rfl | h1) | h1)
            · simpa using hj
            · exact .inl h1
            · exact .inr h1
          · rintro (h1 | h1)
            · exact .inl (.inr h1)
            · exact .inr h1
        · rfl
      rw [hS', sum_addC_mem _ _ _ _ _ hj]
    · have hjX : i.id ∉ X := fun h => hj (by simp [h])
      have hjh : i.id ∉ heap := fun h => hj (by simp [h])
      by_cases hs : IsSource g0 i.id
      · have h0 : t i.id = 0 := ht.fixed _ hjX (.inr hs)
        rw [if_neg (by rw [hcond]; exact fun h => h.1 hs), sum_addC_notMem _ _ _ _ _ hj, h0, map_zero, add_zero]
      · have hemp : info.gradients = [] := by
          by_contra hc
          rcases hI.seen _ _ hm hc with h1 | h1 | h1
          · exact hjh h1
          · exact hnl h1
          · exact hs h1
        have hC : C i.id = [] := by
          rw [hemp] at hrl
          exact List.forall₂_nil_left_iff.1 hrl
        rw [if_pos (hcond.2 ⟨hs, hemp⟩)]
        have hS' : (i.id :: heap).toFinset ∪ X = insert i.id (heap.toFinset ∪ X) := by
          rw [List.toFinset_cons, Finset.insert_union]
        rw [hS', Finset.sum_insert hj, sum_addC_notMem _ _ _ _ _ hj, weight_addC_self]
        simp only [weight, hC, List.map_nil, List.sum_nil, zero_add]
        rw [add_comm]

/-- A gradient that is not registered because the tensor does not lead to `xs`, or because there is none. -/
theorem skip_inv {cy : ∀ k, K.T k →+ K.R} {y : Nat} {g : Graph Op} {log : List Nat}
    {dn : List Incoming} {i : Incoming} {m : GMap} {heap : List Nat}
    {C : ∀ k, List (K.T k →+ K.R)} {φ ψ : (∀ n, K.T n) → K.R}
    (hI : BpInv K g0 ys xs cy g m heap log C ψ (fun k x => k = y ∧ ¬ ∃ j ∈ dn, j.id = x))
    (hφ : ∀ X, Independent g0 ys xs X → ∀ t, MovedBy K g0 X t → ψ t = φ t) :
    BpInv K g0 ys xs cy g m heap log C φ (fun k x => k = y ∧ ¬ ∃ j ∈ dn ++ [i], j.id = x) :=
  { hI with
    single := by
      intro x hxy hx info' hk
      obtain ⟨h1, h2⟩ := hI.single x hxy hx info' hk
      refine ⟨h1, fun hc => ?_⟩
      obtain ⟨k, h3, h4, h5⟩ := h2 hc
      refine ⟨k, h3, h4, ?_⟩
      rintro ⟨rfl, hno⟩
      refine h5 ⟨rfl, ?_⟩
      rintro ⟨j, hj, e⟩
      exact hno ⟨j, by simp [hj], e⟩
    eqn := by
      intro X hX t ht
      rw [hI.eqn X hX t ht, hφ X hX t ht] }

/-- Registering all gradients of a popped tensor. -/
theorem register_inv (hS : GradSound K g0 (ReachedFrom g0 ys) O.addN O.zeros O.shapeOp O.opGrad) (hg : BpDag g0) {cy : ∀ k, K.T k →+ K.R} {y : Nat} {n : Node Op}
    (hn : g0.nodes[y]? = some n) {g : Graph Op} {log : List Nat} (hyl : ∀ k ∈ log, rk g0 y ≤ rk g0 k) (hyIn : y ∈ log) :
    ∀ {is : List Incoming} {dn : List Incoming} {gxs : List (Option Nat)} {φ : (∀ n, K.T n) → K.R} {m m' : GMap} {heap heap' : List Nat}
      {C : ∀ k, List (K.T k →+ K.R)}, n.bpInputs = dn ++ is → Contribs K g is gxs φ →
      BpInv K g0 ys xs cy g m heap log C φ (fun k x => k = y ∧ ¬ ∃ j ∈ dn, j.id = x) →
      register g (is.zip gxs) (m, heap) = .ok (m', heap') →
      ∃ C', BpInv K g0 ys xs cy g m' heap' log C' (fun _ => 0) (fun _ _ => False) := by
  intro is
  induction is with
  | nil =>
    intro dn gxs φ m m' heap heap' C hbp hφ hI h
    cases hφ
    simp only [List.zip_nil_left, register] at h
    cases h
    refine ⟨C, { hI with single := ?_ }⟩
    intro x hxy hx info' hk
    obtain ⟨h1, h2⟩ := hI.single x hxy hx info' hk
    refine ⟨h1, fun hc => ?_⟩
    obtain ⟨k, h3, h4, h5⟩ := h2 hc
    exact ⟨k, h3, h4, id⟩
  | cons i is ih =>
    intro dn gxs φ m m' heap heap' C hbp hφ hI h
    have hbp' : n.bpInputs = (dn ++ [i]) ++ is := by rw [hbp]; simp
    obtain ⟨nx, hnx, _⟩ := (hg y n hn).2 i (by simp [hbp])
    have hnxg := hI.grows.1 _ _ hnx
    have hac : lift (g.access i.id) = .ok nx := lift_ok.2 (access_some.2 hnxg)
    cases hφ with
    | @some _ _ gx gxs c φ' hrep hrest =>
      simp only [List.zip_cons_cons, register, hac, bind, Except.bind] at h
      cases hm : m i.id with
      | none => simp [hm] at h
      | some info =>
        simp only [hm] at h
        by_cases hp : info.onPath = true
        · simp only [hp, if_true, pushGrad, hm] at h
          exact ih hbp' hrest (push_inv hg hn hyl hyIn hbp hrep hI hm hp hnx) (by rw [hp]; exact h)
        · simp only [hp] at h
          refine ih hbp' hrest (skip_inv hI ?_) h
          intro X hX t ht
          have : ¬ Leads g0 xs i.id := fun hl => hp ((hI.entry _ _ hm).1.2 hl)
          rw [moved_zero_off hS hg hX ht _ _ rfl this, map_zero, zero_add]
    | none hrest =>
      simp only [List.zip_cons_cons, register, hac, bind, Except.bind] at h
      cases hm : m i.id with
      | none => simp [hm] at h
      | some info =>
        simp only [hm] at h
        have hI' : BpInv K g0 ys xs cy g m heap log C φ (fun k x => k = y ∧ ¬ ∃ j ∈ dn ++ [i], j.id = x) :=
          skip_inv hI (fun _ _ _ _ => rfl)
        by_cases hp : info.onPath = true
        · simp only [hp, if_true] at h
          exact ih hbp' hrest hI' h
        · simp only [hp] at h
          exact ih hbp' hrest hI' h

theorem sum_apply {A B : Type} [AddCommMonoid A] [AddCommMonoid B] (cs : List (A →+ B)) (v : A) :
    cs.sum v = (cs.map (fun c => c v)).sum := by
  induction cs with
  | nil => rfl
  | cons c cs ih => simp [ih]

theorem contribs_zero {g : Graph Op} {is : List Incoming} {gxs : List (Option Nat)} {φ : (∀ n, K.T n) → K.R}
    (h : Contribs K g is gxs φ) {t : ∀ n, K.T n} (ht : ∀ i ∈ is, t i.id = 0) : φ t = 0 := by
  induction h with
  | nil => rfl
  | @some i is gx gxs c φ _ _ ih =>
    have h1 := ht i (by simp)
    have h2 := ih (fun i hi => ht i (by simp [hi]))
    show c (t i.id) + φ t = 0
    rw [h1, h2, map_zero, add_zero]
  | none _ ih => exact ih (fun i hi => ht i (by simp [hi]))

/-- The accumulated gradient of a tensor. -/
theorem gradient_ghost (hS : GradSound K g0 (ReachedFrom g0 ys) O.addN O.zeros O.shapeOp O.opGrad) {g g' : Graph Op} (hgr : Grows g0 g) {m m' : GMap}
    {k gy : Nat} (h : gradient O g m k = .ok (g', m', gy)) {C : ∀ k, List (K.T k →+ K.R)}
    (hC : ∀ info, m k = some info → List.Forall₂ (K.Rep g k) info.gradients (C k)) :
    ∃ C1 : ∀ k, List (K.T k →+ K.R), Grows g g' ∧ K.Rep g' k gy (C k).sum ∧ (∀ j, j ≠ k → C1 j = C j ∧ m' j = m j) ∧
      ∃ info info', m k = some info ∧ m' k = some info' ∧ info'.onPath = info.onPath ∧ info.gradients ≠ [] ∧ info'.gradients ≠ [] ∧
        List.Forall₂ (K.Rep g' k) info'.gradients (C1 k) ∧ (info.gradients.length ≤ 1 → info' = info ∧ C1 k = C k) := by
  unfold gradient at h
  cases hm : m k with
  | none => rw [hm] at h; cases h
  | some info =>
    rw [hm] at h
    have hr := hC info hm
    cases hgs : info.gradients with
    | nil => simp only [hgs] at h; cases h
    | cons a as =>
      rw [hgs] at hr
      cases as with
      | nil =>
        simp only [hgs] at h
        cases h
        obtain ⟨c, hc, h1⟩ : ∃ c, K.Rep _ k _ c ∧ C k = [c] := by
          cases hr' : C k with
          | nil => rw [hr'] at hr; cases hr
          | cons c cs =>
            rw [hr'] at hr
            cases hr with
            | cons h1 h2 => cases h2; exact ⟨c, h1, rfl⟩
        refine ⟨C, grows_refl _, by rw [h1]; simpa using hc, fun _ _ => ⟨rfl, rfl⟩, info, info, rfl, hm, rfl, by simp [hgs], by simp [hgs],
          by rw [hgs]; exact hr, fun _ => ⟨rfl, rfl⟩⟩
      | cons b bs =>
        simp only [hgs, bind_ok, lift_ok] at h
        obtain ⟨⟨g1, s⟩, h1, h2⟩ := h
        simp only [Except.ok.injEq, Prod.mk.injEq] at h2
        obtain ⟨rfl, rfl, rfl⟩ := h2
        obtain ⟨hg1, h3⟩ := addN_ok h1
        have h4 : IsApp g1 s O.addN (a :: b :: bs) := by
          rcases h3 with ⟨h, _⟩ | h
          · cases h
          · exact h
        have hr' : List.Forall₂ (K.Rep g1 k) (a :: b :: bs) (C k) :=
          hr.imp (fun _ _ hx => hS.mono hgr hg1 hx)
        have hrep := hS.addN (hgr.trans hg1) (by simp) h4 hr'
        refine ⟨Function.update C k ((C k).sum :: (C k).tail), hg1, hrep, ?_, info, { info with gradients := s :: b :: bs }, rfl,
          by simp [GMap.insert], rfl, by simp [hgs], by simp, ?_, by simp [hgs]⟩
        · intro j hj; exact ⟨by simp [hj], by simp [GMap.insert, hj]⟩
        · simp only [Function.update_self]
          refine .cons hrep ?_
          cases hck : C k with
          | nil => rw [hck] at hr'; cases hr'
          | cons c cs => rw [hck] at hr'; cases hr' with | cons _ h => exact h

/-- One iteration of the main loop keeps the invariant. -/
theorem bpVisit_inv (hS : GradSound K g0 (ReachedFrom g0 ys) O.addN O.zeros O.shapeOp O.opGrad) (hg : BpDag g0) {cy : ∀ k, K.T k →+ K.R}
    {s s' : BpState Op} {y : Nat} {C : ∀ k, List (K.T k →+ K.R)}
    (hI : BpInv K g0 ys xs cy s.g s.m s.heap s.log C (fun _ => 0) (fun _ _ => False)) (hy : y ∈ s.heap)
    (hmax : ∀ h ∈ s.heap, rk g0 h ≤ rk g0 y) (h : bpVisit O s y = .ok s') :
    s'.log = s.log ++ [y] ∧ ∃ C', BpInv K g0 ys xs cy s'.g s'.m s'.heap s'.log C' (fun _ => 0) (fun _ _ => False) := by
  simp only [bpVisit, bind_ok, lift_ok] at h
  obtain ⟨⟨g1, m1, gy⟩, h1, n1, h2, ⟨g2, gxs⟩, h3, n2, h4, ⟨m2, heap2⟩, h5, h6⟩ := h
  cases h6
  dsimp only at h2 h3 h4 h5
  refine ⟨rfl, ?_⟩
  obtain ⟨C1, hg1, hrep, hother, info, info', hm, hm', hop, hne, hne', hrel, hkeep⟩ :=
    gradient_ghost hS hI.grows h1 (fun info hm => (hI.entry _ _ hm).2.1)
  obtain ⟨hle, _, n, hn, hdom⟩ := hI.entry _ _ hm
  have hgr1 := hI.grows.trans hg1
  obtain ⟨hyd, hyp, _⟩ := hI.heapIn y hy
  have hnd := (isDiff_iff hn).1 hyd
  have e1 : n1 = n := by
    have := hgr1.1 _ _ hn
    rw [access_some.1 h2] at this; cases this; rfl
  subst e1
  obtain ⟨hg2, φ, hφ, hlin⟩ := hS.opGrad (hI.reached _ _ hm) hgr1 hn hnd hrep h3
  have hgr2 := hgr1.trans hg2
  have e2 : n2 = n1 := by
    have := hgr2.1 _ _ hn
    rw [access_some.1 h4] at this; cases this; rfl
  subst e2
  have hynl : y ∉ s.log := fun hl => hI.logHeap y hl hy
  have hyl : ∀ k ∈ s.log ++ [y], rk g0 y ≤ rk g0 k := by
    intro k hk
    rcases List.mem_append.1 hk with hk | hk
    · exact hI.logRank k hk y hy
    · rw [List.mem_singleton.1 hk]
  have hdom1 : ∀ k, (s.m k).isSome → (m1 k).isSome := by
    intro k hk
    by_cases e : k = y
    · rw [e, hm']; rfl
    · rw [(hother k e).2]; exact hk
  have hcase : ∀ k info1, m1 k = some info1 → (k ≠ y ∧ s.m k = some info1) ∨ (k = y ∧ info1 = info') := by
    intro k info1 hk
    by_cases e : k = y
    · rw [e, hm'] at hk; cases hk; exact .inr ⟨e, rfl⟩
    · rw [(hother k e).2] at hk; exact .inl ⟨e, hk⟩
  have hmono : ∀ {k t c}, K.Rep s.g k t c → K.Rep g2 k t c := fun hx => hS.mono hI.grows (hg1.trans hg2) hx
  refine register_inv (dn := []) (cy := cy) (C := C1) hS hg hn hyl (by simp) (by simp) hφ ?_ h5
  refine
    { grows := hgr2, entry := ?_, empty := ?_, reached := ?_, onPath := ?_, heapNodup := hI.heapNodup.erase _, heapIn := ?_, seen := ?_, logRank := ?_,
      logHeap := ?_, logNodup := ?_, logIn := ?_, logSorted := ?_, single := ?_, eqn := ?_ }
  · intro k info1 hk
    rcases hcase k info1 hk with ⟨e, hk⟩ | ⟨rfl, rfl⟩
    · obtain ⟨a1, a2, n', a3, a4⟩ := hI.entry k info1 hk
      refine ⟨a1, ?_, n', a3, fun hd i hi => hdom1 _ (a4 hd i hi)⟩
      rw [(hother k e).1]; exact a2.imp (fun _ _ => hmono)
    · refine ⟨by rw [hop]; exact hle, hrel.imp (fun _ _ hx => hS.mono hgr1 hg2 hx), n2, hn, fun hd i hi => hdom1 _ (hdom hd i hi)⟩
  · intro k hk
    have e : k ≠ y := by rintro rfl; rw [hm'] at hk; cases hk
    rw [(hother k e).1]; rw [(hother k e).2] at hk; exact hI.empty k hk
  · intro k info1 hk
    rcases hcase k info1 hk with ⟨e, hk⟩ | ⟨rfl, rfl⟩
    · exact hI.reached k info1 hk
    · exact hI.reached k info hm
  · intro k info1 hk hg
    rcases hcase k info1 hk with ⟨e, hk⟩ | ⟨rfl, rfl⟩
    · exact hI.onPath k info1 hk hg
    · exact hI.onPath k info hm hne
  · intro k hk
    obtain ⟨e, hk⟩ := hI.heapNodup.mem_erase_iff.1 hk
    obtain ⟨a1, a2, info1, a3, a4⟩ := hI.heapIn k hk
    exact ⟨a1, a2, info1, by rw [(hother k e).2]; exact a3, a4⟩
  · intro k info1 hk hg
    rcases hcase k info1 hk with ⟨e, hk⟩ | ⟨rfl, rfl⟩
    · rcases hI.seen k info1 hk hg with a | a | a
      · exact .inl (hI.heapNodup.mem_erase_iff.2 ⟨e, a⟩)
      · exact .inr (.inl (by simp [a]))
      · exact .inr (.inr a)
    · exact .inr (.inl (by simp))
  · intro k hk h' hh'
    have hh := (hI.heapNodup.mem_erase_iff.1 hh').2
    rcases List.mem_append.1 hk with hk | hk
    · exact hI.logRank k hk h' hh
    · rw [List.mem_singleton.1 hk]; exact hmax h' hh
  · intro k hk hk'
    obtain ⟨e, hk'⟩ := hI.heapNodup.mem_erase_iff.1 hk'
    rcases List.mem_append.1 hk with hk | hk
    · exact hI.logHeap k hk hk'
    · exact e (List.mem_singleton.1 hk)
  · rw [List.nodup_append]
    refine ⟨hI.logNodup, by simp, ?_⟩
    intro a ha b hb
    rw [List.mem_singleton.1 hb]
    rintro rfl; exact hynl ha
  · intro k hk
    rcases List.mem_append.1 hk with hk | hk
    · exact hI.logIn k hk
    · rw [List.mem_singleton.1 hk]; exact ⟨hyd, hyp.imp_right And.left⟩
  · rw [List.pairwise_append]
    refine ⟨hI.logSorted, by simp, ?_⟩
    intro a ha b hb
    rw [List.mem_singleton.1 hb]; exact hI.logRank a ha y hy
  · intro x hxy hx info1 hk
    have key : ∀ info1, s.m x = some info1 → info1.gradients.length ≤ 1 ∧
        (info1.gradients ≠ [] → ∃ k ∈ s.log ++ [y], BpInput g0 k x ∧ ¬ (k = y ∧ ¬ ∃ j ∈ ([] : List Incoming), j.id = x)) := by
      intro info1 hk
      obtain ⟨a1, a2⟩ := hI.single x hxy hx info1 hk
      refine ⟨a1, fun hc => ?_⟩
      obtain ⟨k, a3, a4, _⟩ := a2 hc
      refine ⟨k, by simp [a3], a4, ?_⟩
      rintro ⟨rfl, _⟩; exact hynl a3
    rcases hcase x info1 hk with ⟨e, hk⟩ | ⟨rfl, rfl⟩
    · exact key _ hk
    · have := (hI.single x hxy hx info hm).1
      rw [(hkeep this).1]
      exact key _ hm
  · intro X hX t ht
    rw [hI.eqn X hX t ht, add_zero]
    by_cases hyX : y ∈ X
    · have hys := hX.notY y hyX
      have hsrc : ¬ IsSource g0 y := by
        rcases hyp with h | h
        · exact absurd h hys
        · exact h.2
      have honce : UsedOnce g0 y := (hX.once y hyX).resolve_left hsrc
      have hCy := (hkeep (hI.single y hys honce info hm).1).2
      have hC1 : C1 = C := by
        funext k
        by_cases e : k = y
        · rw [e]; exact hCy
        · exact (hother k e).1
      have h0 : φ t = 0 := by
        refine contribs_zero hφ fun i hi => ?_
        have hb : BpInput g0 y i.id := ⟨n2, hn, i, hi, rfl⟩
        refine moved_zero_below hS hg ht _ _ rfl fun x hx hr => ?_
        exact hX.antichain y hyX x hx (TransGen.head' hb hr)
      have hSet : (s.heap.erase y).toFinset ∪ X = s.heap.toFinset ∪ X := by
        ext k
        simp only [Finset.mem_union, List.mem_toFinset, hI.heapNodup.mem_erase_iff]
        constructor
        · rintro (⟨_, a⟩ | a)
          · exact .inl a
          · exact .inr a
        · rintro (a | a)
          · by_cases e : k = y
            · exact .inr (e ▸ hyX)
            · exact .inl ⟨e, a⟩
          · exact .inr a
      rw [h0, add_zero, hSet, hC1]
    · have hSet : (s.heap.erase y).toFinset ∪ X = (s.heap.toFinset ∪ X).erase y := by
        ext k
        simp only [Finset.mem_union, List.mem_toFinset, hI.heapNodup.mem_erase_iff, Finset.mem_erase]
        constructor
        · rintro (⟨e, a⟩ | a)
          · exact ⟨e, .inl a⟩
          · exact ⟨fun e => hyX (e ▸ a), .inr a⟩
        · rintro ⟨e, a | a⟩
          · exact .inl ⟨e, a⟩
          · exact .inr a
      have hw : weight K C t y = φ t := by
        rw [weight, ← sum_apply]
        by_cases hs : IsSource g0 y
        · have hb : n2.bpInputs = [] := (hg y n2 hn).1 ((isSource_iff hn).1 hs)
          rw [ht.fixed y hyX (.inr hs), map_zero]
          exact (contribs_zero hφ (t := t) (by rw [hb]; simp)).symm
        · rw [← hlin t, ← ht.op y hyX hyd hs]
      rw [hSet, ← Finset.add_sum_erase _ _ (show y ∈ s.heap.toFinset ∪ X by simp [hy]), hw, add_comm]
      congr 1
      refine Finset.sum_congr rfl fun k hk => ?_
      rw [weight, weight, (hother k (Finset.ne_of_mem_erase hk)).1]

theorem bpLoop_inv (hS : GradSound K g0 (ReachedFrom g0 ys) O.addN O.zeros O.shapeOp O.opGrad) (hg : BpDag g0) {pick : Graph Op → List Nat → Nat}
    (hpick : PicksMax pick) {cy : ∀ k, K.T k →+ K.R} :
    ∀ {fuel : Nat} {s s' : BpState Op} {C : ∀ k, List (K.T k →+ K.R)},
      BpInv K g0 ys xs cy s.g s.m s.heap s.log C (fun _ => 0) (fun _ _ => False) → bpLoop O pick fuel s = some (.ok s') →
      s'.heap = [] ∧ ∃ C', BpInv K g0 ys xs cy s'.g s'.m s'.heap s'.log C' (fun _ => 0) (fun _ _ => False) := by
  intro fuel
  induction fuel with
  | zero => intro s s' C _ h; cases h
  | succ fuel ih =>
    intro s s' C hI h
    simp only [bpLoop] at h
    split at h
    · rename_i he
      cases h
      exact ⟨he, C, hI⟩
    · rename_i he
      cases hv : bpVisit O s (pick s.g s.heap) with
      | error p => rw [hv] at h; cases h
      | ok s1 =>
        rw [hv] at h
        obtain ⟨hy, hmax⟩ := hpick s.g s.heap he
        have hrank : ∀ k ∈ s.heap, HasRank s.g k (rk g0 k) := by
          intro k hk
          obtain ⟨⟨n, hn, _⟩, _⟩ := hI.heapIn k hk
          exact ⟨n, hI.grows.1 _ _ hn, (rk_eq hn).symm⟩
        obtain ⟨_, C', hI'⟩ := bpVisit_inv hS hg hI hy (fun k hk => hmax k hk _ _ (hrank k hk) (hrank _ hy)) hv
        exact ih hI' h

/-! ## Start and end -/

theorem pushAll_ok : ∀ {ps : List (Nat × Nat)} {m m' : GMap}, (ps.map Prod.fst).Nodup → pushAll ps m = .ok m' →
    ∀ k, (∀ info', m' k = some info' → ∃ info, m k = some info ∧ info'.onPath = info.onPath ∧
      ((∃ gy, (k, gy) ∈ ps ∧ info'.gradients = info.gradients ++ [gy]) ∨ (k ∉ ps.map Prod.fst ∧ info' = info))) ∧
      ((m k).isSome → (m' k).isSome) := by
  intro ps
  induction ps with
  | nil =>
    intro m m' _ h k
    simp only [pushAll] at h
    cases h
    exact ⟨fun info h => ⟨info, h, rfl, .inr ⟨by simp, rfl⟩⟩, id⟩
  | cons p ps ih =>
    intro m m' hnd h k
    obtain ⟨y, gy⟩ := p
    simp only [List.map_cons, List.nodup_cons] at hnd
    simp only [pushAll, bind_ok] at h
    obtain ⟨m1, h1, h2⟩ := h
    unfold pushGrad at h1
    cases hm : m y with
    | none => rw [hm] at h1; cases h1
    | some info =>
      rw [hm] at h1
      cases h1
      obtain ⟨h3, h4⟩ := ih hnd.2 h2 k
      refine ⟨?_, fun hk => h4 (domLe_insert _ _ _ _ hk)⟩
      intro info' hk
      obtain ⟨info1, a1, a2, a3⟩ := h3 info' hk
      by_cases e : k = y
      · subst e
        simp [GMap.insert] at a1
        subst a1
        refine ⟨info, hm, a2, ?_⟩
        rcases a3 with ⟨gy', b1, _⟩ | ⟨b1, rfl⟩
        · exact absurd (List.mem_map.2 ⟨_, b1, rfl⟩) hnd.1
        · exact .inl ⟨gy, by simp, rfl⟩
      · simp [GMap.insert, e] at a1
        refine ⟨info1, a1, a2, ?_⟩
        rcases a3 with ⟨gy', b1, b2⟩ | ⟨b1, b2⟩
        · exact .inl ⟨gy', by simp [b1], b2⟩
        · exact .inr ⟨by simpa [e] using b1, b2⟩

theorem start_inv {cy : ∀ k, K.T k →+ K.R} {g : Graph Op} (hgr : Grows g0 g) {m m' : GMap} (hm : MapOk g0 xs m) {ps : List (Nat × Nat)}
    (hnd : (ps.map Prod.fst).Nodup) (hd : ∀ y ∈ ps.map Prod.fst, IsDiff g0 y) (hin : ∀ y ∈ ps.map Prod.fst, (m y).isSome)
    (hreach : ∀ k, (m k).isSome → ReachedFrom g0 (ps.map Prod.fst) k) (hrep : ∀ p ∈ ps, K.Rep g p.1 p.2 (cy p.1)) (h : pushAll ps m = .ok m') :
    ∃ C, BpInv K g0 (ps.map Prod.fst) xs cy g m' (ps.map Prod.fst) [] C (fun _ => 0) (fun _ _ => False) := by
  have hp := pushAll_ok hnd h
  have huniq : ∀ {y a b}, (y, a) ∈ ps → (y, b) ∈ ps → a = b := by
    intro y a b ha hb
    exact (Prod.mk.inj (List.inj_on_of_nodup_map hnd ha hb rfl)).2
  refine ⟨fun k => if k ∈ ps.map Prod.fst then [cy k] else [], ?_⟩
  refine
    { grows := hgr, entry := ?_, empty := ?_, reached := ?_, onPath := ?_, heapNodup := hnd, heapIn := ?_, seen := ?_, logRank := by simp,
      logHeap := by simp, logNodup := by simp, logIn := by simp, logSorted := by simp, single := ?_, eqn := ?_ }
  · intro k info' hk
    obtain ⟨info, a1, a2, a3⟩ := (hp k).1 info' hk
    obtain ⟨b1, b2, n, b3, b4⟩ := hm k info a1
    refine ⟨by rw [a2]; exact b2, ?_, n, b3, fun hd i hi => (hp _).2 (b4 hd i hi)⟩
    rcases a3 with ⟨gy, c1, c2⟩ | ⟨c1, rfl⟩
    · rw [if_pos (List.mem_map.2 ⟨_, c1, rfl⟩), c2, b1]
      exact .cons (hrep _ c1) .nil
    · rw [if_neg c1, b1]; exact .nil
  · intro k hk
    rw [if_neg]
    intro hmem
    have := (hp k).2 (hin k hmem)
    rw [hk] at this; cases this
  · intro k info' hk
    obtain ⟨info, a1, _⟩ := (hp k).1 info' hk
    exact hreach k (by rw [a1]; rfl)
  · intro k info' hk hne
    obtain ⟨info, a1, a2, a3⟩ := (hp k).1 info' hk
    rcases a3 with ⟨gy, c1, c2⟩ | ⟨c1, rfl⟩
    · exact .inr (List.mem_map.2 ⟨_, c1, rfl⟩)
    · exact absurd (hm k _ a1).1 hne
  · intro k hk
    obtain ⟨info', hk'⟩ := Option.isSome_iff_exists.1 ((hp k).2 (hin k hk))
    refine ⟨hd k hk, .inl hk, info', hk', ?_⟩
    obtain ⟨info, a1, a2, a3⟩ := (hp k).1 info' hk'
    rcases a3 with ⟨gy, c1, c2⟩ | ⟨c1, rfl⟩
    · simp [c2]
    · exact absurd hk c1
  · intro k info' hk hne
    obtain ⟨info, a1, a2, a3⟩ := (hp k).1 info' hk
    rcases a3 with ⟨gy, c1, c2⟩ | ⟨c1, rfl⟩
    · exact .inl (List.mem_map.2 ⟨_, c1, rfl⟩)
    · exact absurd (hm k _ a1).1 hne
  · intro x hx _ info' hk
    obtain ⟨info, a1, a2, a3⟩ := (hp x).1 info' hk
    rcases a3 with ⟨gy, c1, c2⟩ | ⟨c1, rfl⟩
    · exact absurd (List.mem_map.2 ⟨_, c1, rfl⟩) hx
    · rw [(hm x _ a1).1]; simp
  · intro X hX t ht
    rw [add_zero, Finset.sum_union]
    · have h0 : ∑ k ∈ X, weight K (fun k => if k ∈ ps.map Prod.fst then [cy k] else []) t k = 0 := by
        refine Finset.sum_eq_zero fun k hk => ?_
        simp only [weight]
        rw [if_neg (hX.notY k hk)]; rfl
      rw [h0, add_zero, ← List.sum_toFinset _ hnd]
      refine Finset.sum_congr rfl fun k hk => ?_
      simp only [weight]
      rw [if_pos (List.mem_toFinset.1 hk)]; simp
    · rw [Finset.disjoint_left]
      intro k hk hk'
      exact hX.notY k hk' (List.mem_toFinset.1 hk)

/-- The function represented by the gradient that is extracted for `x`. -/
def covOf (K : Calculus Op) (m : GMap) (C : ∀ k, List (K.T k →+ K.R)) (x : Nat) : K.T x →+ K.R :=
  match m x with
  | some info => if info.onPath then (C x).sum else 0
  | none => 0

theorem covOf_congr {m m' : GMap} {C C' : ∀ k, List (K.T k →+ K.R)} {x : Nat} (h1 : m x = m' x) (h2 : C x = C' x) :
    covOf K m C x = covOf K m' C' x := by
  unfold covOf; rw [h1, h2]

theorem extractAll_ok (hS : GradSound K g0 (ReachedFrom g0 ys) O.addN O.zeros O.shapeOp O.opGrad) :
    ∀ {xs : List Nat} {g g' : Graph Op} {m : GMap} {ts : List Nat} {C : ∀ k, List (K.T k →+ K.R)}, Grows g0 g → xs.Nodup →
      (∀ x ∈ xs, x < g0.nodes.length) → (∀ x ∈ xs, ∀ info, m x = some info → List.Forall₂ (K.Rep g x) info.gradients (C x)) →
      extractAll O xs g m = .ok (g', ts) →
      Grows g g' ∧ List.Forall₂ (fun x t => K.Rep g' x t (covOf K m C x)) xs ts := by
  intro xs
  induction xs with
  | nil => intro g g' m ts C _ _ _ _ h; simp only [extractAll] at h; cases h; exact ⟨grows_refl _, .nil⟩
  | cons x xs ih =>
    intro g g' m ts C hgr hnd hlt hrel h
    rw [List.nodup_cons] at hnd
    simp only [extractAll, bind_ok] at h
    obtain ⟨⟨g1, m1, t⟩, h1, ⟨g2, ts'⟩, h2, h3⟩ := h
    cases h3
    have hzero : ∀ {g1 z}, zerosLike O g x = .ok (g1, z) → Grows g g1 ∧ K.Rep g1 x z 0 := by
      intro g1 z hz
      obtain ⟨a1, n, s, a2, a3, a4⟩ := zerosLike_ok hz
      have hn := List.getElem?_eq_getElem (hlt x (by simp))
      have := hgr.1 _ _ hn
      rw [a2] at this; cases this
      exact ⟨a1, hS.zeros (hgr.trans a1) hn a3 a4⟩
    -- the head
    unfold extractOne at h1
    have head : ∃ C1 : ∀ k, List (K.T k →+ K.R), Grows g g1 ∧ K.Rep g1 x t (covOf K m C x) ∧ ∀ j, j ≠ x → C1 j = C j ∧ m1 j = m j := by
      cases hm : m x with
      | none =>
        simp only [hm, bind_ok, lift_ok] at h1
        obtain ⟨⟨ga, z⟩, hz, h4⟩ := h1
        cases h4
        obtain ⟨a1, a2⟩ := hzero hz
        refine ⟨C, a1, ?_, fun _ _ => ⟨rfl, rfl⟩⟩
        simpa only [covOf, hm] using a2
      | some info =>
        simp only [hm] at h1
        by_cases hp : info.onPath = true
        · rw [if_pos hp] at h1
          obtain ⟨C1, a1, a2, a3, _⟩ := gradient_ghost hS hgr h1 (C := C) (fun info hm => hrel x (by simp) info hm)
          refine ⟨C1, a1, ?_, a3⟩
          simpa only [covOf, hm, hp, if_true] using a2
        · rw [if_neg hp] at h1
          simp only [bind_ok, lift_ok] at h1
          obtain ⟨⟨ga, z⟩, hz, h4⟩ := h1
          cases h4
          obtain ⟨a1, a2⟩ := hzero hz
          refine ⟨C, a1, ?_, fun _ _ => ⟨rfl, rfl⟩⟩
          simpa only [covOf, hm, hp, Bool.false_eq_true, if_false] using a2
    obtain ⟨C1, a1, a2, a3⟩ := head
    have hne : ∀ j ∈ xs, j ≠ x := fun j hj e => hnd.1 (e ▸ hj)
    obtain ⟨b1, b2⟩ := ih (hgr.trans a1) hnd.2 (fun y hy => hlt y (by simp [hy])) (C := C1) (m := m1) (by
      intro y hy info hm
      rw [(a3 y (hne y hy)).2] at hm
      rw [(a3 y (hne y hy)).1]
      exact (hrel y (by simp [hy]) info hm).imp (fun _ _ h => hS.mono hgr a1 h)) h2
    refine ⟨a1.trans b1, .cons (hS.mono (hgr.trans a1) b1 a2) ?_⟩
    refine (List.forall₂_iff_get.2 ⟨b2.length_eq, ?_⟩)
    intro i hi1 hi2
    have hx := (List.forall₂_iff_get.1 b2).2 i hi1 hi2
    have hj := hne _ (List.get_mem xs ⟨i, hi1⟩)
    rw [covOf_congr (m' := m) (C' := C) (a3 _ hj).2 (a3 _ hj).1] at hx
    exact hx

/-- The result of `compute_gradients` followed by the extraction, given the graph `g` and the gradients `ps` of the `ys`. -/
theorem backprop_ok {ps : List (Nat × Nat)} (hS : GradSound K g0 (ReachedFrom g0 (ps.map Prod.fst)) O.addN O.zeros O.shapeOp O.opGrad) (hg : BpDag g0) {pick : Graph Op → List Nat → Nat}
    (hpick : PicksMax pick) {cy : ∀ k, K.T k →+ K.R} {g : Graph Op} (hgr : Grows g0 g) {m m' : GMap} (hm : MapOk g0 xs m)
    (hnd : (ps.map Prod.fst).Nodup) (hd : ∀ y ∈ ps.map Prod.fst, IsDiff g0 y)
    (hin : ∀ y ∈ ps.map Prod.fst, (m y).isSome) (hreach : ∀ k, (m k).isSome → ReachedFrom g0 (ps.map Prod.fst) k)
    (hrep : ∀ p ∈ ps, K.Rep g p.1 p.2 (cy p.1)) (h : pushAll ps m = .ok m') (hxs : xs.Nodup) (hlt : ∀ x ∈ xs, x < g0.nodes.length)
    {fuel : Nat} {s : BpState Op} (hloop : bpLoop O pick fuel ⟨g, m', ps.map Prod.fst, []⟩ = some (.ok s))
    {g' : Graph Op} {ts : List Nat} (hex : extractAll O xs s.g s.m = .ok (g', ts)) :
    Grows g0 g' ∧
    (s.log.Nodup ∧ (∀ k ∈ s.log, IsDiff g0 k ∧ (k ∈ ps.map Prod.fst ∨ Leads g0 xs k)) ∧ s.log.Pairwise (fun a b => rk g0 b ≤ rk g0 a)) ∧
    ∃ cov : ∀ k, K.T k →+ K.R, List.Forall₂ (fun x t => K.Rep g' x t (cov x)) xs ts ∧
      ∀ X, Independent g0 (ps.map Prod.fst) xs X → ∀ t, MovedBy K g0 X t →
        ((ps.map Prod.fst).map (fun y => cy y (t y))).sum = ∑ x ∈ X, cov x (t x) := by
  obtain ⟨C0, hI0⟩ := start_inv hgr hm hnd hd hin hreach hrep h
  obtain ⟨hhe, C, hI⟩ := bpLoop_inv hS hg hpick (s := ⟨g, m', ps.map Prod.fst, []⟩) hI0 hloop
  obtain ⟨h1, h2⟩ := extractAll_ok hS hI.grows hxs hlt (C := C) (fun x _ info hx => (hI.entry x info hx).2.1) hex
  refine ⟨hI.grows.trans h1, ⟨hI.logNodup, hI.logIn, hI.logSorted⟩, covOf K s.m C, h2, ?_⟩
  intro X hX t ht
  rw [hI.eqn X hX t ht, hhe, add_zero]
  simp only [List.toFinset_nil, Finset.empty_union]
  refine Finset.sum_congr rfl fun x hx => ?_
  unfold covOf
  cases hmx : s.m x with
  | none => simp [weight, hI.empty x hmx]
  | some info =>
    have hl : Leads g0 xs x := .here (hX.diff x hx) (hX.sub x hx)
    simp only [(hI.entry x info hmx).1.2 hl, if_true]
    rw [weight, sum_apply]

end Verif.Gradient
