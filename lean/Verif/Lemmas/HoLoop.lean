import Verif.Lemmas.HoGrad
import Verif.Lemmas.ProgramGradient

/-! `grad` applied to a graph of smooth tensors gives a graph of smooth tensors. -/

namespace Verif.Prog
open Verif Verif.Graph Verif.Nd Verif.Hint Verif.Gradient Verif.Spec Verif.Eval

section
variable {B : Bool} {F : List (Feed (Arr ℝ))} {N : List (Arr ℝ)}

theorem values_unique {g : Graph POp} : ∀ {xs : List Nat} {vs ws : List (Arr ℝ)}, List.Forall₂ (Evals (setting F N) g) xs vs →
    List.Forall₂ (Evals (setting F N) g) xs ws → vs = ws
  | _, _, _, .nil, .nil => rfl
  | _, _, _, .cons a as, .cons b bs => by rw [evals_unique' a b, values_unique as bs]

theorem values_map {g : Graph POp} : ∀ {xs : List Nat} {vs : List (Arr ℝ)}, List.Forall₂ (Evals (setting F N) g) xs vs → ∀ x ∈ xs, ∃ v, Evals (setting F N) g x v
  | _, _, .cons a as, x, hx => by
    rcases List.mem_cons.1 hx with rfl | hx
    · exact ⟨_, a⟩
    · exact values_map as x hx

theorem run_of_values {g : Graph POp} (hw : WF g) {t : Nat} {op : POp} {xs : List Nat} {vs : List (Arr ℝ)} {v : Arr ℝ} (ha : IsApp g t op xs)
    (hx : List.Forall₂ (Evals (setting F N) g) xs vs) (ht : Evals (setting F N) g t v) : op.run vs = .ok v := by
  classical
  have hall : ∀ x, ∃ w, x ∈ xs → Evals (setting F N) g x w := by
    intro x
    by_cases h : x ∈ xs
    · obtain ⟨w, hw⟩ := values_map hx x h
      exact ⟨w, fun _ => hw⟩
    · exact ⟨v, fun h' => absurd h' h⟩
  choose p hp using hall
  have := run_of_evals hw ha hp ht
  rwa [← values_unique hx (forall₂_map hp)] at this

/-- The gradients collected for a tensor have its shape. -/
def MapShapes (F : List (Feed (Arr ℝ))) (N : List (Arr ℝ)) (g : Graph POp) (m : GMap) : Prop :=
  ∀ k info, m k = some info → ∀ t ∈ info.gradients, SameShape F N g k t

theorem MapShapes.mono {g g' : Graph POp} (hg : Grows g g') (hc : InputsExist g) {m : GMap} (h : MapShapes F N g m) : MapShapes F N g' m :=
  fun k info hk t ht => (h k info hk t ht).mono hg hc

theorem MapShapes.insert {g : Graph POp} {m : GMap} (h : MapShapes F N g m) {k : Nat} {info : Info} (hk : ∀ t ∈ info.gradients, SameShape F N g k t) :
    MapShapes F N g (m.insert k info) := by
  intro j i hj t ht
  unfold GMap.insert at hj
  split at hj
  · rename_i e
    cases hj; subst e; exact hk t ht
  · exact h j i hj t ht

theorem SInv.bpInputs {g : Graph POp} (hi : SInv B F N g) {k : Nat} {n : Node POp} (hn : g.nodes[k]? = some n) : n.bpInputs = n.incoming := by
  have : n.backpropInputs = none := by
    cases hi.node k n hn with
    | leaf _ _ h => exact h
    | app _ h => exact h
  simp [Node.bpInputs, this]

theorem SInv.bpDag {g : Graph POp} (hi : SInv B F N g) : BpDag g := by
  intro k n hn
  rw [hi.bpInputs hn]
  exact ⟨fun h => h, hi.ranked k n hn⟩

theorem SInv.addN_ {g g' : Graph POp} (hi : SInv B F N g) {a t : Nat} {as : List Nat} (h : Gradient.addN gradOps g a as = .ok (g', t)) {k : Nat}
    (hs : ∀ t ∈ a :: as, SameShape F N g k t) : Grows g g' ∧ SInv B F N g' ∧ SameShape F N g' k t := by
  cases as with
  | nil => cases h; exact ⟨grows_refl _, hi, hs a (by simp)⟩
  | cons b as =>
    obtain ⟨vk, va, h1, h2, h3⟩ := hs a (by simp)
    have hvals : ∀ t ∈ a :: b :: as, ∃ v, Evals (setting F N) g t v ∧ v.shape = vk.shape := by
      intro t ht
      obtain ⟨vk', vt, e1, e2, e3⟩ := hs t ht
      rw [evals_unique' e1 h1] at e3
      exact ⟨vt, e2, e3⟩
    obtain ⟨vs, hvs⟩ : ∃ vs, List.Forall₂ (fun t v => Evals (setting F N) g t v ∧ v.shape = vk.shape) (a :: b :: as) vs := by
      generalize a :: b :: as = l at hvals
      induction l with
      | nil => exact ⟨[], .nil⟩
      | cons x l ih =>
        obtain ⟨v, hv⟩ := hvals x (by simp)
        obtain ⟨vs, hvs⟩ := ih fun t ht => hvals t (by simp [ht])
        exact ⟨v :: vs, .cons hv hvs⟩
    have hsh : ∀ v ∈ vs, v.shape = vk.shape := by
      intro v hv
      obtain ⟨j, hj⟩ := List.mem_iff_getElem?.1 hv
      have hjl : j < (a :: b :: as).length := by rw [hvs.length_eq]; exact (List.getElem?_eq_some_iff.1 hj).1
      obtain ⟨w, hw, e⟩ := (forall₂_get hvs).2 j _ (List.getElem?_eq_getElem hjl)
      rw [hj] at hw
      cases hw
      exact e.2
    cases hvs with | cons e1 hvs =>
    cases hvs with | cons e2 hvs =>
    rename_i v1 v2 vs
    obtain ⟨w, w1, w2, _⟩ := addN_value (v1 :: v2 :: vs) vk.shape (by simp) hsh
    have h' : construct hintOps g (.like .addN ((a :: b :: as).map inp) a) = .ok (g', t) := h
    obtain ⟨x1, x2, x3⟩ := hi.like h' (vs := v1 :: v2 :: vs) (v := w) (w := v1) (.cons e1.1 (.cons e2.1 (hvs.imp fun _ _ h => h.1))) w1 e1.1
      (by rw [w2, e1.2]) (fun z hz => by rw [hsh z (by simp only [List.mem_cons] at hz ⊢; exact .inr hz), e1.2]) rfl
    exact ⟨x1, x2, vk, w, Evals.mono x1 hi.closed h1, x3, w2⟩

theorem SInv.gradient_ {g g' : Graph POp} (hi : SInv B F N g) {m m' : GMap} {k t : Nat} (hm : MapShapes F N g m)
    (h : Gradient.gradient gradOps g m k = .ok (g', m', t)) : Grows g g' ∧ SInv B F N g' ∧ MapShapes F N g' m' ∧ SameShape F N g' k t := by
  unfold Gradient.gradient at h
  cases hk : m k with
  | none => simp [hk] at h
  | some info =>
    have hs := hm k info hk
    simp only [hk] at h
    cases hg : info.gradients with
    | nil => simp [hg] at h
    | cons a as =>
      rw [hg] at hs
      cases as with
      | nil =>
        simp only [hg, Except.ok.injEq, Prod.mk.injEq] at h
        obtain ⟨rfl, rfl, rfl⟩ := h
        exact ⟨grows_refl _, hi, hm, hs _ (by simp)⟩
      | cons b bs =>
        simp only [hg, bind_ok] at h
        obtain ⟨⟨g1, s⟩, h1, h2⟩ := h
        simp only [Except.ok.injEq, Prod.mk.injEq] at h2
        obtain ⟨rfl, rfl, rfl⟩ := h2
        obtain ⟨a1, a2, a3⟩ := hi.addN_ (lift_ok.1 h1) hs
        refine ⟨a1, a2, (hm.mono a1 hi.closed).insert ?_, a3⟩
        intro t ht
        simp only [List.mem_cons] at ht
        rcases ht with rfl | ht
        · exact a3
        · exact (hs t (by simp only [List.mem_cons]; exact .inr ht)).mono a1 hi.closed

theorem pushGrad_shapes {g : Graph POp} {m m' : GMap} {k t : Nat} (hm : MapShapes F N g m) (h : pushGrad m k t = .ok m') (ht : SameShape F N g k t) :
    MapShapes F N g m' := by
  unfold pushGrad at h
  cases hk : m k with
  | none => simp [hk] at h
  | some info =>
    simp only [hk, Except.ok.injEq] at h
    subst h
    refine hm.insert fun t' ht' => ?_
    simp only [List.mem_append, List.mem_singleton] at ht'
    rcases ht' with h | rfl
    · exact hm k info hk t' h
    · exact ht

theorem register_shapes {g : Graph POp} : ∀ (l : List (Incoming × Option Nat)) {m m' : GMap} {heap heap' : List Nat}, MapShapes F N g m →
    (∀ q ∈ l, ∀ t, q.2 = some t → SameShape F N g q.1.id t) → register g l (m, heap) = .ok (m', heap') → MapShapes F N g m'
  | [], m, m', heap, heap', hm, _, h => by
    simp only [register, Except.ok.injEq, Prod.mk.injEq] at h
    rw [← h.1]; exact hm
  | (i, gx) :: l, m, m', heap, heap', hm, hl, h => by
    simp only [register, bind_ok] at h
    obtain ⟨nx, _, h⟩ := h
    have hl' : ∀ q ∈ l, ∀ t, q.2 = some t → SameShape F N g q.1.id t := fun q hq => hl q (by simp [hq])
    cases hk : m i.id with
    | none => simp [hk] at h
    | some info =>
      simp only [hk] at h
      split at h
      · cases gx with
        | none => exact register_shapes l hm hl' h
        | some t =>
          simp only [bind_ok] at h
          obtain ⟨m1, h1, h2⟩ := h
          exact register_shapes l (pushGrad_shapes hm h1 (hl (i, some t) (by simp) t rfl)) hl' h2
      · exact register_shapes l hm hl' h

theorem SInv.bpVisit_ {s s' : BpState POp} (hi : SInv B F N s.g) (hm : MapShapes F N s.g s.m) {y : Nat} (h : bpVisit gradOps s y = .ok s') :
    Grows s.g s'.g ∧ SInv B F N s'.g ∧ MapShapes F N s'.g s'.m := by
  simp only [bpVisit, bind_ok] at h
  obtain ⟨⟨g1, m1, gy⟩, h1, n, h2, ⟨g2, gxs⟩, h3, n2, h4, ⟨m2, heap2⟩, h5, h6⟩ := h
  simp only [Except.ok.injEq] at h6
  subst h6
  obtain ⟨G1, I1, M1, yv, gv, ey, eg, hs⟩ := hi.gradient_ hm h1
  have hn := access_some.1 (lift_ok.1 h2)
  have h3' : POp.opGrad n.op g1 y gy = .ok (g2, gxs) := h3
  simp only [POp.opGrad, bind_ok] at h3'
  obtain ⟨n', h7, h8⟩ := h3'
  have hn' := access_some.1 (lift_ok.1 h7)
  have : n' = n := by rw [hn] at hn'; exact (Option.some.inj hn').symm
  subst this
  have hnode := I1.node y n' hn
  cases hnode with
  | leaf ho hin _ _ _ =>
    exfalso
    rw [hin] at h8
    rcases ho with ho | ho <;> rw [ho] at h8 <;> simp [Prog.gradOf] at h8
  | app happ hb hev hok hfix hd =>
    rename_i xs vs
    obtain ⟨nn, e1, e2, e3, e4, e5⟩ := happ
    rw [hn] at e1
    cases e1
    have hids : n'.incoming.map Incoming.id = xs := by
      rw [e3, List.map_map]
      exact (List.map_congr_left fun _ _ => rfl).trans (List.map_id _)
    rw [hids] at h8
    have hrun : n'.op.run vs = .ok yv := run_of_values I1.reach.wf ⟨n', hn, rfl, e3, e4, e5⟩ hev ey
    obtain ⟨G2, I2, S2⟩ := I1.gradOf hev hok hrun ey eg hs h8
    have hn2 : n2 = n' := by
      have := G2.1 _ _ hn
      rw [access_some.1 (lift_ok.1 h4)] at this
      exact Option.some.inj this
    refine ⟨G1.trans G2, I2, register_shapes _ (M1.mono G2 I1.closed) ?_ h5⟩
    intro q hq t ht
    rw [hn2, I1.bpInputs hn, e3] at hq
    refine S2 (q.1.id, q.2) ?_ t ht
    rw [List.zip_map_left] at hq
    obtain ⟨q', hq', rfl⟩ := List.mem_map.1 hq
    exact hq'

theorem SInv.bpLoop_ {pick : Graph POp → List Nat → Nat} : ∀ (fuel : Nat) {s s' : BpState POp}, SInv B F N s.g → MapShapes F N s.g s.m →
    bpLoop gradOps pick fuel s = some (.ok s') → Grows s.g s'.g ∧ SInv B F N s'.g ∧ MapShapes F N s'.g s'.m
  | 0, s, s', _, _, h => by simp [bpLoop] at h
  | fuel + 1, s, s', hi, hm, h => by
    simp only [bpLoop] at h
    split at h
    · cases h
      exact ⟨grows_refl _, hi, hm⟩
    · cases hv : bpVisit gradOps s (pick s.g s.heap) with
      | error p => simp [hv] at h
      | ok s1 =>
        simp only [hv] at h
        obtain ⟨a1, a2, a3⟩ := hi.bpVisit_ hm hv
        obtain ⟨b1, b2, b3⟩ := SInv.bpLoop_ fuel a2 a3 h
        exact ⟨a1.trans b1, b2, b3⟩

theorem pushAll_shapes {g : Graph POp} : ∀ (l : List (Nat × Nat)) {m m' : GMap}, MapShapes F N g m → (∀ q ∈ l, SameShape F N g q.1 q.2) →
    pushAll l m = .ok m' → MapShapes F N g m'
  | [], m, m', hm, _, h => by cases h; exact hm
  | (y, gy) :: l, m, m', hm, hl, h => by
    simp only [pushAll, bind_ok] at h
    obtain ⟨m1, h1, h2⟩ := h
    exact pushAll_shapes l (pushGrad_shapes hm h1 (hl (y, gy) (by simp))) (fun q hq => hl q (by simp [hq])) h2

theorem SInv.zeros_ {g g' : Graph POp} (hi : SInv B F N g) {x t : Nat} (h : zerosLike gradOps g x = .ok (g', t)) :
    Grows g g' ∧ SInv B F N g' ∧ SameShape F N g' x t := by
  simp only [zerosLike, bind_ok] at h
  obtain ⟨⟨g1, s⟩, h1, h2⟩ := h
  have hx : x < g.nodes.length := by
    simp only [shapeTensor, bind_ok] at h1
    obtain ⟨n, hn, _⟩ := h1
    exact (List.getElem?_eq_some_iff.1 (access_some.1 hn)).1
  obtain ⟨v, hv, _⟩ := hi.vals x hx
  obtain ⟨a1, a2, a3, a4⟩ := hi.shape (h1 : Hint.shape hintOps g x = _) hv
  have h2' : construct hintOps g1 (.plain .zeros ([s].map inp)) = .ok (g', t) := h2
  obtain ⟨b1, b2, b3⟩ := a2.plain h2' (vs := [encShape v.shape]) (v := ofFn v.shape (fun _ => 0)) (.cons a3 .nil)
    (by simp only [POp.run, readShape_enc, bind, Except.bind]) trivial (by simpa [fixedIn] using a4)
  exact ⟨a1.trans b1, b2, v, _, Evals.mono (a1.trans b1) hi.closed hv, b3, rfl⟩

theorem SInv.extractAll_ : ∀ (xs : List Nat) {g g' : Graph POp} {m : GMap} {ts : List Nat}, SInv B F N g → MapShapes F N g m →
    extractAll gradOps xs g m = .ok (g', ts) → Grows g g' ∧ SInv B F N g' ∧ List.Forall₂ (SameShape F N g') xs ts
  | [], g, g', m, ts, hi, _, h => by cases h; exact ⟨grows_refl _, hi, .nil⟩
  | x :: xs, g, g', m, ts, hi, hm, h => by
    simp only [extractAll, bind_ok] at h
    obtain ⟨⟨g1, m1, t⟩, h1, ⟨g2, ts'⟩, h2, h3⟩ := h
    simp only [Except.ok.injEq, Prod.mk.injEq] at h3
    obtain ⟨rfl, rfl⟩ := h3
    have h1' : Grows g g1 ∧ SInv B F N g1 ∧ MapShapes F N g1 m1 ∧ SameShape F N g1 x t := by
      have hz : ∀ {g' : Graph POp} {m' : GMap} {t : Nat}, (do let (g', z) ← lift (zerosLike gradOps g x); Except.ok (g', m, z)) = .ok (g', m', t) →
          Grows g g' ∧ SInv B F N g' ∧ MapShapes F N g' m' ∧ SameShape F N g' x t := by
        intro g' m' t h
        simp only [bind_ok] at h
        obtain ⟨⟨g1, z⟩, h1, h2⟩ := h
        simp only [Except.ok.injEq, Prod.mk.injEq] at h2
        obtain ⟨rfl, rfl, rfl⟩ := h2
        obtain ⟨a1, a2, a3⟩ := hi.zeros_ (lift_ok.1 h1)
        exact ⟨a1, a2, hm.mono a1 hi.closed, a3⟩
      unfold extractOne at h1
      cases hk : m x with
      | none => simp only [hk] at h1; exact hz h1
      | some info =>
        simp only [hk] at h1
        split at h1
        · exact hi.gradient_ hm h1
        · exact hz h1
    obtain ⟨a1, a2, a3, a4⟩ := h1'
    obtain ⟨b1, b2, b3⟩ := SInv.extractAll_ xs a2 a3 h2
    exact ⟨a1.trans b1, b2, .cons (a4.mono b1 a2.closed) b3⟩

theorem SInv.sumAlls_ : ∀ (ys : List Nat) {g g' : Graph POp} {ts : List Nat}, SInv B F N g → sumAlls gradOps g ys = .ok (g', ts) →
    Grows g g' ∧ SInv B F N g' ∧ ∀ t ∈ ts, ∃ v, Evals (setting F N) g' t v ∧ v.shape = []
  | [], g, g', ts, hi, h => by cases h; exact ⟨grows_refl _, hi, by simp⟩
  | y :: ys, g, g', ts, hi, h => by
    simp only [sumAlls, bind_ok] at h
    obtain ⟨⟨g1, t⟩, h1, ⟨g2, ts'⟩, h2, h3⟩ := h
    simp only [Except.ok.injEq, Prod.mk.injEq] at h3
    obtain ⟨rfl, rfl⟩ := h3
    have h1' : construct hintOps g (.plain .sumAll ([y].map inp)) = .ok (g1, t) := h1
    have hy : y < g.nodes.length := by
      obtain ⟨r, hr, _⟩ := build_ok (h1 : g.build { inNodes := [inp y] } POp.sumAll = _)
      obtain ⟨m, hm, _⟩ := buildRank_ok hr (inp y) (by simp)
      exact (List.getElem?_eq_some_iff.1 hm).1
    obtain ⟨v, hv, _⟩ := hi.vals y hy
    obtain ⟨a1, a2, a3⟩ := hi.plain h1' (vs := [v]) (v := Nd.sumAll v) (.cons hv .nil) rfl trivial (by simp [fixedIn])
    obtain ⟨b1, b2, b3⟩ := SInv.sumAlls_ ys a2 h2
    refine ⟨a1.trans b1, b2, fun t' ht' => ?_⟩
    rcases List.mem_cons.1 ht' with rfl | ht'
    · exact ⟨_, Evals.mono b1 a2.closed a3, rfl⟩
    · exact b3 t' ht'

/-- `grad`. -/
theorem SInv.grad_ {g : Graph POp} (hi : SInv B F N g) {pick : Graph POp → List Nat → Nat} {fuel : Nat} {ys xs : List Nat} {r : GradResult POp}
    (h : Gradient.grad gradOps pick fuel g ys xs = some (.ok r)) : Grows g r.g ∧ SInv B F N r.g ∧ List.Forall₂ (SameShape F N r.g) xs r.grads := by
  obtain ⟨g0, sys, g1, one, m, m', s, h1, h2, h3, h4, h5, h6, _⟩ := grad_ok h
  obtain ⟨G0, I0, V0⟩ := SInv.sumAlls_ ys hi h1
  have h3' : construct hintOps g0 (.scalar (.scalar 1)) = .ok (g1, one) := h3
  obtain ⟨G1, I1, E1⟩ := I0.scalar h3' (v := ofFn [] (fun _ => 1)) rfl rfl trivial rfl
  have hm : MapShapes F N g1 m := by
    obtain ⟨m0, _, k1, _, _, k2⟩ := initMap_ok (xs := xs) I0.bpDag (ys := sys) (fun y hy => by
      obtain ⟨v, hv, _⟩ := V0 y hy
      exact evals_lt hv)
    have := k2 fuel _ h2
    cases this
    intro k info hk t ht
    rw [(k1 k info hk).1] at ht
    cases ht
  have hm' := pushAll_shapes _ hm (fun q hq => by
    obtain ⟨y, hy, rfl⟩ := List.mem_map.1 hq
    obtain ⟨v, hv, e⟩ := V0 y hy
    exact ⟨v, _, Evals.mono G1 I0.closed hv, E1, e.symm⟩) h4
  obtain ⟨G2, I2, M2⟩ := SInv.bpLoop_ fuel (s := ⟨g1, m', sys, []⟩) I1 hm' h5
  obtain ⟨G3, I3, S3⟩ := SInv.extractAll_ xs I2 M2 h6
  exact ⟨((G0.trans G1).trans G2).trans G3, I3, S3⟩

/-- There are no calls of `stop_gradient`. -/
theorem SInv.stopsStill {g : Graph POp} (hi : SInv B F N g) (X : List Nat) : StopsStill g X := by
  intro k n hn ho
  cases hi.node k n hn with
  | leaf a => rw [ho] at a; rcases a with a | a <;> cases a
  | app a b c d e f => rw [ho] at d; exact d.elim

/-- The graph satisfies the conditions of the gradient theorem. -/
theorem SInv.progGraph {g : Graph POp} (hi : SInv B F N g) (X : List Nat) : ∃ p, ProgGraph g X F N p := by
  classical
  have hall : ∀ n, ∃ v, n < g.nodes.length → Evals (setting F N) g n v := by
    intro n
    by_cases hn : n < g.nodes.length
    · obtain ⟨v, hv, _⟩ := hi.vals n hn
      exact ⟨v, fun _ => hv⟩
    · exact ⟨ofFn [] (fun _ => 0), fun h => absurd h hn⟩
  choose p hp using hall
  refine ⟨p, hi.reach.wf, hi.closed, hi.bpDag, fun k n hn i hii => (hi.old k n hn i hii).1, hp, fun n hn => hi.hinted (hp n hn), ?_, ?_, ?_⟩
  · intro k n hn
    cases hi.node k n hn with
    | leaf a b c d e => exact .leaf a b e
    | app a b c d e f =>
      rename_i xs vs
      have hvs : vs = xs.map p := values_unique c (forall₂_map fun x hx => hp x (by
        obtain ⟨w, hw⟩ := values_map c x hx
        exact evals_lt hw))
      subst hvs
      refine .app a b (.inr (sOk_opOk d)) (fun x hx => (e x hx).still X) ?_
      intro hd t
      rcases f.1 hd with h | h <;> rw [h] <;> rfl
  · intro k n hn hl
    cases hi.node k n hn with
    | leaf a b c d e => exact ⟨d, b⟩
    | app a =>
      obtain ⟨nd, h1, _, _, h4, h5⟩ := a
      rw [hn] at h1; cases h1
      rcases hl with h | h
      · exact absurd h4 h
      · exact absurd h5 h
  · intro k n hn h
    rw [hi.bpInputs hn, h]

end

end Verif.Prog
