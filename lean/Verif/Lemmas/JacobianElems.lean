import Verif.Lemmas.JacobianRows
import Verif.Lemmas.Grown
import Verif.Lemmas.HoTotal
import Verif.Lemmas.GradCount

/-! The gradients of the elements that `jacobians` collects. -/

namespace Verif.Prog
open Verif Verif.Graph Verif.Nd Verif.Hint Verif.Gradient Verif.Spec Verif.Eval

theorem still_grows {g G : Graph POp} (h : Grows g G) {X : List Nat} {n : Nat} (hs : Still g X n) : Still G X n := by
  induction hs with
  | leaf h1 h2 =>
    obtain ⟨nd, a, b⟩ := h1
    exact .leaf ⟨nd, h.1 _ _ a, b⟩ h2
  | shape h1 => exact .shape (isApp_mono h h1)
  | size h1 => exact .size (isApp_mono h h1)
  | stop h1 => exact .stop (isApp_mono h h1)
  | app h1 h2 ih => exact .app (isApp_mono h h1) ih

/-- A new element tensor. -/
theorem elem_built {g g' : Graph POp} {y i e : Nat} (h : mk g (.plain (.index (i : Int)) [inp y]) = .ok (g', e)) : IsElem g' e y i ∧ e = g.nodes.length := by
  have h := lift_ok.1 h
  simp only [construct] at h
  obtain ⟨h1, _, r, _, h2⟩ := build_new h
  refine ⟨⟨_, by rw [h2, h1]; exact List.getElem?_concat_length, rfl, rfl, rfl, rfl, rfl, rfl, rfl⟩, h1⟩

/-- A graph that has grown from that of a program, with an element of one of its tensors. -/
theorem coreShape_elem {g G : Graph POp} {X : List Nat} (hS : ProgShape g X) (hgr : Grows g G) (hh : HintsIn G) (hbp : BpDag G) {e y i : Nat} (he : IsElem G e y i)
    (hy : y < g.nodes.length) : CoreShape G (fun n => n < g.nodes.length ∨ n = e) X := by
  have hold : ∀ (k : Nat) (n : Node POp), k < g.nodes.length → G.nodes[k]? = some n → g.nodes[k]? = some n := by
    intro k n hk hn
    have := hgr.1 _ _ (List.getElem?_eq_getElem hk)
    rw [hn] at this; cases this
    exact List.getElem?_eq_getElem hk
  obtain ⟨nd, e1, e2, e3, e4, e5, e6, e7, e8⟩ := he
  refine ⟨hgr.2 hS.closed, hbp, hh, ?_, ?_, ?_⟩
  · rintro k n (hk | rfl) hn j hj
    · exact .inl (hS.closed k n (hold k n hk hn) j hj)
    · rw [e1] at hn; cases hn
      rw [e3] at hj
      simp at hj
      subst hj
      exact .inl hy
  · rintro k n (hk | rfl) hn hl
    · exact hS.leaf k n trivial (hold k n hk hn) hl
    · rw [e1] at hn; cases hn
      simp [e5, e6] at hl
  · rintro k n (hk | rfl) hn
    · rcases hS.node k n trivial (hold k n hk hn) with h | ⟨xs, h1, h2, h3, h4, h5⟩
      · exact .inl h
      · refine .inr ⟨xs, h1, h2, ?_, h4, fun a ha => still_grows hgr (h5 a ha)⟩
        rcases h3 with h3 | ⟨h3, h6, h7⟩
        · exact .inl h3
        · exact .inr ⟨h3, h6, fun x hx => still_grows hgr (h7 x hx)⟩
    · rw [e1] at hn; cases hn
      exact .inr ⟨[y], e3, e4, .inl (by rw [e2]; trivial), by rw [e2]; simp, by rw [e2]; simp [noGrad]⟩

/-- The arrays `D` are the derivatives of the element `i` of the tensor `y` of the program with respect to the tensors `xs`. -/
def ElemDeriv (g : Graph POp) (xs : List Nat) (p : Nat → Arr ℝ) (y i : Nat) (D : Nat → Arr ℝ) : Prop :=
  ∀ (F : ℝ → List (Feed (Arr ℝ))) (N : ℝ → List (Arr ℝ)) (V : Nat → ℝ → Arr ℝ) (d : Nat → List Nat → ℝ),
    (∀ x ∈ xs, Moves (V x) (p x) (d x) ∧ ∀ u, Evals (setting (F u) (N u)) g x (V x u)) →
    (∀ x, IsLeaf g x → x ∉ xs → ∀ u, Evals (setting (F u) (N u)) g x (p x)) →
    ∃ Y : ℝ → Nat → Arr ℝ, (∀ u n, n < g.nodes.length → Evals (setting (F u) (N u)) g n (Y u n) ∧ (Y u n).shape = (p n).shape ∧ (Still g xs n → Y u n = p n)) ∧
      HasDerivAt (fun u => (Y u y).get (unflat (p y).shape i)) (xs.map (fun x => Prog.inner (p x).shape (D x).get (d x))).sum 0

theorem elemGrads_ok {g : Graph POp} {xs : List Nat} {feeds : List (Feed (Arr ℝ))} {env : List (Arr ℝ)} {p : Nat → Arr ℝ} (hP : ProgGraph g xs feeds env p) (hns : StopsStill g xs) (hS : ProgShape g xs)
    {y : Nat} (hy : y < g.nodes.length) (hc : Contig (p y).shape (p y).strides) (pick : Graph POp → List Nat → Nat) (hpick : PicksMax pick) (hxs : xs.Nodup) (hleaf : ∀ x ∈ xs, IsLeaf g x) :
    ∀ {is : List Nat} {G : Graph POp}, Grows g G → HintsIn G → BpDag G → (∀ i ∈ is, i < Nd.size (p y).shape) →
    ∃ K, ∀ fuel, K ≤ fuel → elemGrads pick fuel y xs is G = some (.error (.grad (.graph .graphTooLarge))) ∧ numNodesCritical < G.nodes.length + is.length * (30 * g.nodes.length + 2 * xs.length + 95) ∨
      ∃ G' vecs, elemGrads pick fuel y xs is G = some (.ok (G', vecs)) ∧ Grows G G' ∧ HintsIn G' ∧ G'.nodes.length ≤ G.nodes.length + is.length * (30 * g.nodes.length + 2 * xs.length + 95) ∧
        List.Forall₂ (fun i v => ∃ D : Nat → Arr ℝ, List.Forall₂ (fun x t => Evals (setting feeds env) G' t (D x) ∧ (D x).shape = (p x).shape) xs v ∧
          ElemDeriv g xs p y i D) is vecs := by
  intro is
  induction is with
  | nil =>
    intro G hgr hh hbp hi
    exact ⟨0, fun fuel _ => .inr ⟨G, [], rfl, grows_refl _, hh, by simp, .nil⟩⟩
  | cons i is ih =>
    intro G hgr hh hbp hi
    have hyG := grows_lt hgr hy
    obtain ⟨s1, s2⟩ := plain_safe (xs := [y]) (.index (i : Int)) (by simpa using hyG) hh
    cases hm : mk G (.plain (.index (i : Int)) [inp y]) with
    | error q =>
      refine ⟨0, fun fuel _ => .inl ⟨?_, ?_⟩⟩
      · simp only [elemGrads, hm, s1 q hm]
      · have := (adds_mk (g := G) (c := .plain (.index (i : Int)) [inp y]) (k := 1) (by simp [ctorCost])).err (by rw [hm, s1 q hm])
        rw [List.length_cons, Nat.add_mul, Nat.one_mul]
        omega
    | ok v =>
      obtain ⟨G1, e⟩ := v
      obtain ⟨k1, k2, _⟩ := s2 G1 e hm
      obtain ⟨hel, hee⟩ := elem_built hm
      have c1 : G1.nodes.length ≤ G.nodes.length + 1 := (adds_mk (g := G) (c := .plain (.index (i : Int)) [inp y]) (k := 1) (by simp [ctorCost])).ok _ hm
      have hbp1 : BpDag G1 := (mk_builds (W := False) (op := .index (i : Int)) (xs := [y]) hm rfl).bpDag hbp
      have hgr1 := hgr.trans k1
      have hCS := coreShape_elem hS hgr1 k2 hbp1 hel hy
      have hleaf1 : ∀ x ∈ xs, IsLeaf G1 x := fun x hx => by
        obtain ⟨nd, a, b⟩ := hleaf x hx
        exact ⟨nd, hgr1.1 _ _ a, b⟩
      have heG : e < G1.nodes.length := by obtain ⟨nd, a, _⟩ := hel; exact (List.getElem?_eq_some_iff.1 a).1
      have hyc : ∀ z ∈ [e], z < g.nodes.length ∨ z = e := fun z hz => .inr (by simpa using hz)
      obtain ⟨K1, hK1⟩ := grad_returns_core hCS hpick (ys := [e]) (by simp) hyc (by simpa using heG) hleaf1
      have hT : ∀ k < G1.nodes.length, (k < g.nodes.length ∨ k = e) → k ∈ List.range g.nodes.length ++ [e] := fun k _ h => by
        rw [List.mem_append, List.mem_range, List.mem_singleton]; exact h
      have c2 := fun fuel r (h : grad gradOps pick fuel G1 [e] xs = some r) => grad_adds_core hCS hyc hT hpick (by simp) hleaf1 h
      simp only [List.length_append, List.length_range, List.length_singleton] at c2
      rcases hK1 K1 (le_refl _) with ⟨r, hr, _⟩ | hr
      swap
      · refine ⟨K1, fun fuel hf => .inl ⟨?_, ?_⟩⟩
        · simp only [elemGrads, hm, grad_mono hr hf]
        · have := (c2 _ _ hr).err rfl
          rw [List.length_cons, Nat.add_mul, Nat.one_mul]
          omega
      have c3 := (c2 _ _ hr).ok _ rfl
      obtain ⟨q1, q2⟩ := grad_keeps hCS hpick hyc hleaf1 hr
      have hgr2 : Grows G1 r.g := (grad_builds opGrad_builds hr).grows
      obtain ⟨D, hD1, hD2⟩ := grown_gradient hP hns hgr1 hbp1 hel (by rw [hee]; by_contra hlt; exact lt_irrefl _ (grows_lt hgr (not_le.1 hlt))) hy (hi i (by simp)) hc pick hpick K1 hxs hleaf r hr
      obtain ⟨K2, hK2⟩ := ih (hgr1.trans hgr2) q1 q2 (fun j hj => hi j (by simp [hj]))
      refine ⟨max K1 K2, fun fuel hf => ?_⟩
      have hr' := grad_mono hr (le_trans (le_max_left K1 K2) hf)
      simp only [elemGrads, hm, hr']
      rcases hK2 fuel (le_trans (le_max_right K1 K2) hf) with ⟨h, h'⟩ | ⟨G', vecs, h1, h2, h3, h5, h4⟩
      · refine .inl ⟨by simp only [h], ?_⟩
        rw [List.length_cons, Nat.add_mul, Nat.one_mul]
        omega
      · right
        refine ⟨G', r.grads :: vecs, by simp only [h1], (k1.trans hgr2).trans h2, h3, by rw [List.length_cons, Nat.add_mul, Nat.one_mul]; omega, .cons ⟨D, hD1.imp fun _ _ h => ⟨Evals.mono h2 ((hgr1.trans hgr2).2 hP.closed) h.1, h.2⟩, hD2⟩ h4⟩

end Verif.Prog
