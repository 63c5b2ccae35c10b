import Verif.Lemmas.GradLoop
import Mathlib.Algebra.Group.PUnit

/-! # Back-propagation does not panic by itself -/

namespace Verif.Gradient
open Verif Verif.Spec Verif.Graph Relation
variable {Op : Type}

/-! ## The map only contains tensors reached from `ys` -/

/-- Everything on the stack and in the map is reached from the `ys`. -/
def StackOk (g : Graph Op) (ys : List Nat) (s : List (Nat × Bool) × GMap) : Prop :=
  (∀ e ∈ s.1, ReachedFrom g ys e.1 ∧ IsDiff g e.1) ∧ ∀ k, (s.2 k).isSome → ReachedFrom g ys k

theorem pushChildren_stackOk {g : Graph Op} {ys xs : List Nat} {curr : Nat} (hr : ReachedFrom g ys curr) (hd : IsDiff g curr) :
    ∀ {is : List Incoming} {s s' : List (Nat × Bool) × GMap}, (∀ i ∈ is, BpInput g curr i.id) → StackOk g ys s →
      pushChildren g xs curr is s = .ok s' → StackOk g ys s' := by
  intro is
  induction is with
  | nil => intro s s' _ hs h; simp only [pushChildren] at h; cases h; exact hs
  | cons i is ih =>
    intro s s' hb hs h
    obtain ⟨stack, m⟩ := s
    simp only [pushChildren, bind_ok, lift_ok] at h
    obtain ⟨c, hc, h⟩ := h
    have hc' := access_some.1 hc
    have hri : ReachedFrom g ys i.id := .step hr hd (hb i (by simp))
    have hb' : ∀ j ∈ is, BpInput g curr j.id := fun j hj => hb j (by simp [hj])
    split at h
    · split at h
      · refine ih hb' ?_ h
        refine ⟨hs.1, ?_⟩
        intro k hk
        simp only [GMap.insert] at hk
        split at hk
        · rename_i e; rw [e]; exact hri
        · exact hs.2 k hk
      · rename_i hcond
        refine ih hb' ?_ h
        refine ⟨?_, hs.2⟩
        intro e he
        rcases List.mem_cons.1 he with rfl | he
        · simp at hcond
          exact ⟨hri, c, hc', hcond.2⟩
        · exact hs.1 e he
    · exact ih hb' hs h

theorem initStep_stackOk {g : Graph Op} {ys xs : List Nat} {s s' : List (Nat × Bool) × GMap} (hs : StackOk g ys s)
    (h : initStep g xs s = .ok (some s')) : StackOk g ys s' := by
  obtain ⟨stack, m⟩ := s
  cases stack with
  | nil => simp only [initStep] at h; cases h
  | cons e stack =>
    obtain ⟨curr, v⟩ := e
    obtain ⟨hr, hd⟩ := hs.1 (curr, v) (by simp)
    have hs' : ∀ e ∈ stack, ReachedFrom g ys e.1 ∧ IsDiff g e.1 := fun e he => hs.1 e (by simp [he])
    cases v with
    | true =>
      have fin : ∀ b, StackOk g ys (stack, m.insert curr ⟨[], b⟩) := by
        intro b
        refine ⟨hs', ?_⟩
        intro k hk
        simp only [GMap.insert] at hk
        split at hk
        · rename_i e; rw [e]; exact hr
        · exact hs.2 k hk
      simp only [initStep, bind, Except.bind] at h
      split at h
      · cases h
      · split at h
        · split at h
          · cases h
          · cases h; exact fin _
        · cases h; exact fin _
    | false =>
      simp only [initStep, bind_ok, lift_ok] at h
      obtain ⟨n, hn, s1, h1, h2⟩ := h
      cases h2
      refine pushChildren_stackOk hr hd (fun i hi => ⟨n, access_some.1 hn, i, hi, rfl⟩) ?_ h1
      refine ⟨?_, hs.2⟩
      intro e he
      rcases List.mem_cons.1 he with rfl | he
      · exact ⟨hr, hd⟩
      · exact hs' e he

theorem initLoop_stackOk {g : Graph Op} {ys xs : List Nat} : ∀ {fuel : Nat} {s : List (Nat × Bool) × GMap} {m : GMap},
    StackOk g ys s → initLoop g xs fuel s = some (.ok m) → ∀ k, (m k).isSome → ReachedFrom g ys k := by
  intro fuel
  induction fuel with
  | zero => intro s m _ h; cases h
  | succ fuel ih =>
    intro s m hs h
    simp only [initLoop] at h
    cases h1 : initStep g xs s with
    | error p => rw [h1] at h; cases h
    | ok o =>
      rw [h1] at h
      cases o with
      | none => cases h; exact hs.2
      | some s' => exact ih (initStep_stackOk hs h1) h

theorem initMap_reached {g : Graph Op} {ys xs : List Nat} {fuel : Nat} {m : GMap} (hd : ∀ y ∈ ys, IsDiff g y)
    (h : initMap g ys xs fuel = some (.ok m)) : ∀ k, (m k).isSome → ReachedFrom g ys k := by
  refine initLoop_stackOk ⟨?_, by simp⟩ h
  intro e he
  simp only [List.mem_reverse, List.mem_map] at he
  obtain ⟨y, hy, rfl⟩ := he
  exact ⟨.here hy, hd y hy⟩

/-! ## The calculus that only records that tensors exist -/

/-- `Rep` says that the gradient tensor exists. -/
def existence (Op : Type) : Calculus Op where
  T := fun _ => PUnit
  R := PUnit
  lin := fun _ _ => PUnit.unit
  Rep := fun g _ t _ => t < g.nodes.length

theorem grows_lt {g g' : Graph Op} (h : Grows g g') {t : Nat} (ht : t < g.nodes.length) : t < g'.nodes.length :=
  (List.getElem?_eq_some_iff.1 (h.1 t _ (List.getElem?_eq_getElem ht))).1

theorem contribs_existence {g : Graph Op} : ∀ {is : List Incoming} {gxs : List (Option Nat)}, is.length ≤ gxs.length →
    (∀ t, some t ∈ gxs → t < g.nodes.length) → ∃ φ, Contribs (existence Op) g is gxs φ := by
  intro is
  induction is with
  | nil =>
    intro gxs _ _
    exact ⟨_, .nil⟩
  | cons i is ih =>
    intro gxs h ht
    cases gxs with
    | nil => simp at h
    | cons gx gxs =>
      obtain ⟨φ, hφ⟩ := ih (gxs := gxs) (by simpa using h) (fun t h => ht t (by simp [h]))
      cases gx with
      | none => exact ⟨φ, .none hφ⟩
      | some t => exact ⟨_, .some (c := 0) (ht t (by simp)) hφ⟩

variable {g0 : Graph Op} {O : GradOps Op} {ys xs : List Nat}

theorem existence_sound {D : Nat → Prop} (hW : GradWellFormed g0 O.opGrad) :
    GradSound (existence Op) g0 D O.addN O.zeros O.shapeOp O.opGrad where
  mono := fun _ h ht => grows_lt h ht
  addN := by
    rintro g n s ts cs _ _ ⟨nn, h, _⟩ _
    exact (List.getElem?_eq_some_iff.1 h).1
  zeros := by
    rintro g x nx z s _ _ ⟨nn, h, _⟩ _
    exact (List.getElem?_eq_some_iff.1 h).1
  lin_zero := fun _ _ => rfl
  opGrad := by
    intro n node g g' gy gxs c _ hg hn hd hr h
    obtain ⟨h1, h2, h3⟩ := hW hg hn hd hr h
    obtain ⟨φ, hφ⟩ := contribs_existence h2 h3
    exact ⟨h1, φ, hφ, fun _ => rfl⟩

/-! ## Panics -/

theorem buildRank_total {g : Graph Op} : ∀ {is : List Incoming}, (∀ i ∈ is, i.id < g.nodes.length) → ∃ r, g.buildRank is = .ok r := by
  intro is
  induction is with
  | nil => intro _; exact ⟨0, rfl⟩
  | cons i is ih =>
    intro h
    obtain ⟨r, hr⟩ := ih (fun j hj => h j (by simp [hj]))
    have := access_some.2 (List.getElem?_eq_getElem (h i (by simp)))
    exact ⟨max ((g.nodes[i.id]'(h i (by simp))).topoRank + 1) r, by simp only [buildRank, this, hr, bind, Except.bind]⟩

theorem build_error {g : Graph Op} {b : Builder} {op : Op} {p : Panic} (h : g.build b op = .error p)
    (hb : ∀ i ∈ b.inNodes, i.id < g.nodes.length) : p = .graphTooLarge := by
  obtain ⟨r, hr⟩ := buildRank_total hb
  simp only [build, hr, bind, Except.bind, install] at h
  split at h
  · cases h; rfl
  · cases h

theorem shapeTensor_error {g : Graph Op} {x : Nat} (hx : x < g.nodes.length) {p : Panic} (h : shapeTensor O g x = .error p) :
    p = .graphTooLarge := by
  simp only [shapeTensor, access_some.2 (List.getElem?_eq_getElem hx), bind, Except.bind] at h
  split at h
  · cases h
  · exact build_error h (by simpa using hx)

theorem addN_error {g : Graph Op} {x : Nat} {xs : List Nat} (hx : ∀ t ∈ x :: xs, t < g.nodes.length) {p : Panic}
    (h : addN O g x xs = .error p) : p = .graphTooLarge := by
  cases xs with
  | nil => cases h
  | cons a as =>
    simp only [addN, bind, Except.bind] at h
    split at h
    · rename_i h1
      cases h
      exact shapeTensor_error (hx x (by simp)) h1
    · rename_i v h1
      refine build_error h ?_
      intro i hi
      obtain ⟨t, ht, rfl⟩ := List.mem_map.1 hi
      exact grows_lt (shapeTensor_ok h1).1 (hx t ht)

theorem zerosLike_error {g : Graph Op} {x : Nat} (hsh : ∀ (n : Node Op) (s : Nat), g.nodes[x]? = some n → n.shape = some s → s < g.nodes.length)
    (hx : x < g.nodes.length) {p : Panic} (h : zerosLike O g x = .error p) : p = .graphTooLarge := by
  simp only [zerosLike, bind, Except.bind] at h
  split at h
  · rename_i h1
    cases h
    exact shapeTensor_error hx h1
  · rename_i v h1
    refine build_error h ?_
    intro i hi
    obtain ⟨h2, n, h3, h4⟩ := shapeTensor_ok (s := v.2) (g' := v.1) h1
    simp at hi
    subst hi
    rcases h4 with h4 | ⟨n', h4, _⟩
    · exact grows_lt h2 (hsh _ _ h3 h4)
    · exact (List.getElem?_eq_some_iff.1 h4).1

/-! ## Tensors that have received a gradient -/

theorem insert_self (m : GMap) (k : Nat) (v : Info) : m.insert k v k = some v := by simp [GMap.insert]

/-- The tensor has received a gradient. -/
def HasGrad (m : GMap) (k : Nat) : Prop := ∃ info, m k = some info ∧ info.gradients ≠ []
/-- The tensor is marked. -/
def Marked (m : GMap) (k : Nat) : Prop := ∃ info, m k = some info ∧ info.onPath = true
/-- All gradients exist. -/
def GradsExist (g : Graph Op) (m : GMap) : Prop := ∀ k info, m k = some info → ∀ t ∈ info.gradients, t < g.nodes.length

theorem register_facts {g : Graph Op} : ∀ {L : List (Incoming × Option Nat)} {m m' : GMap} {heap heap' : List Nat},
    register g L (m, heap) = .ok (m', heap') → (∀ k, HasGrad m k → HasGrad m' k) ∧ (∀ k, Marked m k ↔ Marked m' k) ∧
      ∀ i t, (i, some t) ∈ L → Marked m i.id → HasGrad m' i.id := by
  intro L
  induction L with
  | nil => intro m m' heap heap' h; simp only [register] at h; cases h; exact ⟨fun _ => id, fun _ => .rfl, by simp⟩
  | cons e L ih =>
    intro m m' heap heap' h
    obtain ⟨i, gx⟩ := e
    simp only [register, bind_ok, lift_ok] at h
    obtain ⟨nx, hnx, h⟩ := h
    cases hm : m i.id with
    | none => simp only [hm] at h; cases h
    | some info =>
      simp only [hm] at h
      by_cases hp : info.onPath = true
      · rw [if_pos hp] at h
        cases gx with
        | none =>
          obtain ⟨h1, h2, h3⟩ := ih h
          refine ⟨h1, h2, ?_⟩
          intro j t hj hmk
          rcases List.mem_cons.1 hj with e | hj
          · cases e
          · exact h3 j t hj hmk
        | some t =>
          simp only [pushGrad, hm, bind_ok] at h
          obtain ⟨m1, h0, h⟩ := h
          cases h0
          obtain ⟨h1, h2, h3⟩ := ih h
          have hne : HasGrad (m.insert i.id { info with gradients := info.gradients ++ [t] }) i.id :=
            ⟨_, insert_self _ _ _, by simp⟩
          have hmk : ∀ k, Marked m k ↔ Marked (m.insert i.id { info with gradients := info.gradients ++ [t] }) k := by
            intro k
            by_cases e : k = i.id
            · subst e
              exact ⟨fun _ => ⟨_, insert_self _ _ _, hp⟩, fun _ => ⟨info, hm, hp⟩⟩
            · simp only [Marked, GMap.insert, e, if_false]
          refine ⟨?_, fun k => (hmk k).trans (h2 k), ?_⟩
          · intro k hk
            refine h1 k ?_
            by_cases e : k = i.id
            · subst e; exact hne
            · obtain ⟨info', a, b⟩ := hk
              exact ⟨info', by simp only [GMap.insert, e, if_false]; exact a, b⟩
          · intro j u hj hmj
            rcases List.mem_cons.1 hj with e | hj
            · cases e; exact h1 _ hne
            · exact h3 j u hj ((hmk _).1 hmj)
      · rw [if_neg hp] at h
        obtain ⟨h1, h2, h3⟩ := ih h
        refine ⟨h1, h2, ?_⟩
        intro j t hj hmj
        rcases List.mem_cons.1 hj with e | hj
        · cases e
          obtain ⟨info', a, b⟩ := hmj
          rw [hm] at a; cases a; exact absurd b hp
        · exact h3 j t hj hmj

theorem register_total {g : Graph Op} : ∀ {L : List (Incoming × Option Nat)} {m : GMap} {heap : List Nat},
    (∀ e ∈ L, (m e.1.id).isSome ∧ e.1.id < g.nodes.length) → ∃ r, register g L (m, heap) = .ok r := by
  intro L
  induction L with
  | nil => intro m heap _; exact ⟨_, rfl⟩
  | cons e L ih =>
    intro m heap h
    obtain ⟨i, gx⟩ := e
    obtain ⟨h1, h2⟩ := h (i, gx) (by simp)
    obtain ⟨info, hm⟩ := Option.isSome_iff_exists.1 h1
    have hac : lift (g.access i.id) = .ok _ := lift_ok.2 (access_some.2 (List.getElem?_eq_getElem h2))
    have hrest : ∀ e ∈ L, (m e.1.id).isSome ∧ e.1.id < g.nodes.length := fun e he => h e (by simp [he])
    simp only [register, hac, bind, Except.bind, hm]
    split
    · cases gx with
      | none => exact ih hrest
      | some t =>
        simp only [pushGrad, hm]
        exact ih (fun e he => ⟨domLe_insert _ _ _ _ (hrest e he).1, (hrest e he).2⟩)
    · exact ih hrest

theorem gradient_facts {g g' : Graph Op} {m m' : GMap} {k gy : Nat} (h : gradient O g m k = .ok (g', m', gy)) (hex : GradsExist g m) :
    Grows g g' ∧ GradsExist g' m' ∧ gy < g'.nodes.length ∧ (∀ j, HasGrad m j → HasGrad m' j) ∧ (∀ j, Marked m j ↔ Marked m' j) ∧
      (∀ j, (m j).isSome → (m' j).isSome) := by
  unfold gradient at h
  cases hm : m k with
  | none => rw [hm] at h; cases h
  | some info =>
    rw [hm] at h
    cases hgs : info.gradients with
    | nil => simp only [hgs] at h; cases h
    | cons a as =>
      have ha := hex k info hm
      cases as with
      | nil =>
        simp only [hgs] at h
        cases h
        exact ⟨grows_refl _, hex, ha _ (by simp [hgs]), fun _ => id, fun _ => .rfl, fun _ => id⟩
      | cons b bs =>
        simp only [hgs, bind_ok, lift_ok] at h
        obtain ⟨⟨g1, s⟩, h1, h2⟩ := h
        simp only [Except.ok.injEq, Prod.mk.injEq] at h2
        obtain ⟨rfl, rfl, rfl⟩ := h2
        obtain ⟨hg1, h3⟩ := addN_ok h1
        have hs : s < g1.nodes.length := by
          rcases h3 with ⟨h, _⟩ | ⟨n, h, _⟩
          · cases h
          · exact (List.getElem?_eq_some_iff.1 h).1
        refine ⟨hg1, ?_, hs, ?_, ?_, domLe_insert _ _ _⟩
        · intro j info' hj t ht
          simp only [GMap.insert] at hj
          split at hj
          · cases hj
            rcases List.mem_cons.1 ht with rfl | ht
            · exact hs
            · exact grows_lt hg1 (ha t (by rw [hgs]; exact List.mem_cons_of_mem _ ht))
          · exact grows_lt hg1 (hex j info' hj t ht)
        · intro j hj
          by_cases e : j = k
          · subst e; exact ⟨_, insert_self _ _ _, by simp⟩
          · obtain ⟨info', a, b⟩ := hj
            exact ⟨info', by simp only [GMap.insert, e, if_false]; exact a, b⟩
        · intro j
          by_cases e : j = k
          · subst e
            constructor
            · rintro ⟨info', a, b⟩
              rw [hm] at a; cases a
              exact ⟨_, insert_self _ _ _, b⟩
            · rintro ⟨info', a, b⟩
              simp only [GMap.insert, if_true] at a
              cases a
              exact ⟨info, hm, b⟩
          · simp only [Marked, GMap.insert, e, if_false]

theorem gradient_error {g : Graph Op} {m : GMap} {k : Nat} {p : GPanic} (h : gradient O g m k = .error p) (hex : GradsExist g m)
    (hk : HasGrad m k) : p = .graph .graphTooLarge := by
  obtain ⟨info, hm, hne⟩ := hk
  unfold gradient at h
  rw [hm] at h
  cases hgs : info.gradients with
  | nil => exact absurd hgs hne
  | cons a as =>
    have ha := hex k info hm
    cases as with
    | nil => simp only [hgs] at h; cases h
    | cons b bs =>
      simp only [hgs, bind, Except.bind] at h
      split at h
      · rename_i h1
        cases h
        unfold lift at h1
        split at h1
        · cases h1
        · rename_i q h2
          cases h1
          rw [addN_error (by intro t ht; exact ha t (by rw [hgs]; exact ht)) h2]
      · cases h

theorem gradient_error' {g : Graph Op} {m : GMap} {k : Nat} {p : GPanic} (h : gradient O g m k = .error p) (hex : GradsExist g m)
    (hk : (m k).isSome) : p = .graph .graphTooLarge ∨ p = .noGradient := by
  by_cases hg : HasGrad m k
  · exact .inl (gradient_error h hex hg)
  · obtain ⟨info, hm⟩ := Option.isSome_iff_exists.1 hk
    have : info.gradients = [] := by
      by_contra hne
      exact hg ⟨info, hm, hne⟩
    unfold gradient at h
    simp only [hm, this] at h
    cases h
    exact .inr rfl

theorem extractAll_error : ∀ {xs : List Nat} {g : Graph Op} {m : GMap} {p : GPanic}, Grows g0 g → GradsExist g m →
    (∀ (x : Nat) (n : Node Op) s, g0.nodes[x]? = some n → n.shape = some s → s < g0.nodes.length) →
    (∀ x ∈ xs, x < g0.nodes.length) → (∀ x ∈ xs, Marked m x → HasGrad m x) →
    extractAll O xs g m = .error p → p = .graph .graphTooLarge := by
  intro xs
  induction xs with
  | nil => intro g m p _ _ _ _ _ h; cases h
  | cons x xs ih =>
    intro g m p hgr hex hsh hlt hmk h
    simp only [extractAll, bind, Except.bind] at h
    have hx := hlt x (by simp)
    have hzero : ∀ {p}, zerosLike O g x = .error p → p = .graphTooLarge := by
      intro p hz
      refine zerosLike_error ?_ (grows_lt hgr hx) hz
      intro n s hn hs
      have hn0 := List.getElem?_eq_getElem hx
      have := hgr.1 _ _ hn0
      rw [hn] at this; cases this
      exact grows_lt hgr (hsh x _ s hn0 hs)
    have hlift : ∀ {e : Except Panic (Graph Op × Nat)} {p}, lift e = .error p → ∃ q, e = .error q ∧ p = .graph q := by
      intro e p h
      cases e with
      | ok _ => cases h
      | error q => cases h; exact ⟨q, rfl, rfl⟩
    cases h1 : extractOne O g m x with
    | error q =>
      rw [h1] at h
      cases h
      unfold extractOne at h1
      cases hm : m x with
      | none =>
        simp only [hm, bind, Except.bind] at h1
        cases h2 : lift (zerosLike O g x) with
        | ok v => rw [h2] at h1; cases h1
        | error q =>
          rw [h2] at h1; cases h1
          obtain ⟨q, h3, rfl⟩ := hlift h2
          rw [hzero h3]
      | some info =>
        simp only [hm] at h1
        by_cases hp : info.onPath = true
        · rw [if_pos hp] at h1
          exact gradient_error h1 hex (hmk x (by simp) ⟨info, hm, hp⟩)
        · rw [if_neg hp] at h1
          simp only [bind, Except.bind] at h1
          cases h2 : lift (zerosLike O g x) with
          | ok v => rw [h2] at h1; cases h1
          | error q =>
            rw [h2] at h1; cases h1
            obtain ⟨q, h3, rfl⟩ := hlift h2
            rw [hzero h3]
    | ok v =>
      obtain ⟨g1, m1, t⟩ := v
      rw [h1] at h
      have hfacts : Grows g g1 ∧ GradsExist g1 m1 ∧ (∀ j, HasGrad m j → HasGrad m1 j) ∧ (∀ j, Marked m j ↔ Marked m1 j) := by
        have hz : ∀ {ga z}, zerosLike O g x = .ok (ga, z) → Grows g ga ∧ GradsExist ga m := by
          intro ga z hz
          have := (zerosLike_ok hz).1
          exact ⟨this, fun k info hk t ht => grows_lt this (hex k info hk t ht)⟩
        unfold extractOne at h1
        cases hm : m x with
        | none =>
          simp only [hm, bind_ok, lift_ok] at h1
          obtain ⟨⟨ga, z⟩, h2, h3⟩ := h1
          cases h3
          exact ⟨(hz h2).1, (hz h2).2, fun _ => id, fun _ => .rfl⟩
        | some info =>
          simp only [hm] at h1
          by_cases hp : info.onPath = true
          · rw [if_pos hp] at h1
            obtain ⟨a, b, _, c, d, _⟩ := gradient_facts h1 hex
            exact ⟨a, b, c, d⟩
          · rw [if_neg hp] at h1
            simp only [bind_ok, lift_ok] at h1
            obtain ⟨⟨ga, z⟩, h2, h3⟩ := h1
            cases h3
            exact ⟨(hz h2).1, (hz h2).2, fun _ => id, fun _ => .rfl⟩
      obtain ⟨a, b, c, d⟩ := hfacts
      simp only at h
      split at h
      · rename_i h2
        cases h
        exact ih (hgr.trans a) b hsh (fun y hy => hlt y (by simp [hy])) (fun y hy hm' => c y (hmk y (by simp [hy]) ((d y).2 hm'))) h2
      · cases h

theorem extractAll_error' : ∀ {xs : List Nat} {g : Graph Op} {m : GMap} {p : GPanic}, Grows g0 g → GradsExist g m →
    (∀ (x : Nat) (n : Node Op) s, g0.nodes[x]? = some n → n.shape = some s → s < g0.nodes.length) →
    (∀ x ∈ xs, x < g0.nodes.length) →
    extractAll O xs g m = .error p → p = .graph .graphTooLarge ∨ p = .noGradient := by
  intro xs
  induction xs with
  | nil => intro g m p _ _ _ _ h; cases h
  | cons x xs ih =>
    intro g m p hgr hex hsh hlt h
    simp only [extractAll, bind, Except.bind] at h
    have hx := hlt x (by simp)
    have hzero : ∀ {p}, zerosLike O g x = .error p → p = .graphTooLarge := by
      intro p hz
      refine zerosLike_error ?_ (grows_lt hgr hx) hz
      intro n s hn hs
      have hn0 := List.getElem?_eq_getElem hx
      have := hgr.1 _ _ hn0
      rw [hn] at this; cases this
      exact grows_lt hgr (hsh x _ s hn0 hs)
    have hlift : ∀ {e : Except Panic (Graph Op × Nat)} {p}, lift e = .error p → ∃ q, e = .error q ∧ p = .graph q := by
      intro e p h
      cases e with
      | ok _ => cases h
      | error q => cases h; exact ⟨q, rfl, rfl⟩
    cases h1 : extractOne O g m x with
    | error q =>
      rw [h1] at h
      cases h
      unfold extractOne at h1
      cases hm : m x with
      | none =>
        simp only [hm, bind, Except.bind] at h1
        cases h2 : lift (zerosLike O g x) with
        | ok v => rw [h2] at h1; cases h1
        | error q =>
          rw [h2] at h1; cases h1
          obtain ⟨q, h3, rfl⟩ := hlift h2
          exact .inl (by rw [hzero h3])
      | some info =>
        simp only [hm] at h1
        by_cases hp : info.onPath = true
        · rw [if_pos hp] at h1
          exact gradient_error' h1 hex (by simp [hm])
        · rw [if_neg hp] at h1
          simp only [bind, Except.bind] at h1
          cases h2 : lift (zerosLike O g x) with
          | ok v => rw [h2] at h1; cases h1
          | error q =>
            rw [h2] at h1; cases h1
            obtain ⟨q, h3, rfl⟩ := hlift h2
            exact .inl (by rw [hzero h3])
    | ok v =>
      obtain ⟨g1, m1, t⟩ := v
      rw [h1] at h
      have hfacts : Grows g g1 ∧ GradsExist g1 m1 ∧ (∀ j, HasGrad m j → HasGrad m1 j) ∧ (∀ j, Marked m j ↔ Marked m1 j) := by
        have hz : ∀ {ga z}, zerosLike O g x = .ok (ga, z) → Grows g ga ∧ GradsExist ga m := by
          intro ga z hz
          have := (zerosLike_ok hz).1
          exact ⟨this, fun k info hk t ht => grows_lt this (hex k info hk t ht)⟩
        unfold extractOne at h1
        cases hm : m x with
        | none =>
          simp only [hm, bind_ok, lift_ok] at h1
          obtain ⟨⟨ga, z⟩, h2, h3⟩ := h1
          cases h3
          exact ⟨(hz h2).1, (hz h2).2, fun _ => id, fun _ => .rfl⟩
        | some info =>
          simp only [hm] at h1
          by_cases hp : info.onPath = true
          · rw [if_pos hp] at h1
            obtain ⟨a, b, _, c, d, _⟩ := gradient_facts h1 hex
            exact ⟨a, b, c, d⟩
          · rw [if_neg hp] at h1
            simp only [bind_ok, lift_ok] at h1
            obtain ⟨⟨ga, z⟩, h2, h3⟩ := h1
            cases h3
            exact ⟨(hz h2).1, (hz h2).2, fun _ => id, fun _ => .rfl⟩
      obtain ⟨a, b, c, d⟩ := hfacts
      simp only at h
      split at h
      · rename_i h2
        cases h
        exact ih (hgr.trans a) b hsh (fun y hy => hlt y (by simp [hy])) h2
      · cases h

theorem scalarOne_error {g : Graph Op} {p : Panic} (h : scalarOne O g = .error p) : p = .graphTooLarge := by
  simp only [scalarOne, bind, Except.bind] at h
  split at h
  · rename_i h1; cases h; exact build_error h1 (by simp)
  · split at h
    · rename_i h1; cases h; exact build_error h1 (by simp)
    · exact build_error h (by simp)

/-! ## The loop -/

variable {G : Prop}

/-- The structural part of the loop invariant, and that processed tensors have given gradients to all their inputs that lead to `xs`. -/
structure Struct (G : Prop) (g0 : Graph Op) (ys xs : List Nat) (s : BpState Op) : Prop where
  inv : ∃ C, BpInv (existence Op) g0 ys xs (fun _ => 0) s.g s.m s.heap s.log C (fun _ => 0) (fun _ _ => False)
  fed : G → ∀ p ∈ s.log, ∀ b, BpInput g0 p b → Leads g0 xs b → HasGrad s.m b
  ysGrad : ∀ y ∈ ys, HasGrad s.m y
  logGrad : ∀ k ∈ s.log, HasGrad s.m k
  reached : ∀ k, (s.m k).isSome → ReachedFrom g0 ys k

theorem Struct.exist {s : BpState Op} (h : Struct G g0 ys xs s) : GradsExist s.g s.m := by
  obtain ⟨C, hI⟩ := h.inv
  intro k info hk t ht
  obtain ⟨_, h2, _⟩ := hI.entry k info hk
  have : ∀ {ts : List Nat} {cs : List ((existence Op).T k →+ (existence Op).R)}, List.Forall₂ ((existence Op).Rep s.g k) ts cs →
      ∀ t ∈ ts, t < s.g.nodes.length := by
    intro ts cs h
    induction h with
    | nil => simp
    | cons h1 _ ih =>
      intro t ht
      rcases List.mem_cons.1 ht with rfl | ht
      · exact h1
      · exact ih t ht
  exact this h2 t ht

/-- A panic in `Op::grad` of tensor `y`. -/
def OpGradFails (O : GradOps Op) (g0 : Graph Op) (y : Nat) (p : GPanic) : Prop :=
  ∃ (n : Node Op) (g : Graph Op) (gy : Nat), g0.nodes[y]? = some n ∧ Grows g0 g ∧ gy < g.nodes.length ∧ O.opGrad n.op g y gy = .error p

theorem bpVisit_total (hW : GradWellFormed g0 O.opGrad) (hg : BpDag g0) {s : BpState Op} {y : Nat}
    (hs : Struct G g0 ys xs s) (hy : y ∈ s.heap) {p : GPanic} (h : bpVisit O s y = .error p) :
    p = .graph .graphTooLarge ∨ (IsDiff g0 y ∧ (y ∈ ys ∨ Leads g0 xs y ∧ ¬ IsSource g0 y)) ∧ OpGradFails O g0 y p := by
  obtain ⟨C, hI⟩ := hs.inv
  obtain ⟨hyd, hyp, hyg⟩ := hI.heapIn y hy
  obtain ⟨n, hn, hnd⟩ := hyd
  simp only [bpVisit, bind, Except.bind] at h
  split at h
  · rename_i h1
    cases h
    exact .inl (gradient_error h1 hs.exist hyg)
  · rename_i v h1
    obtain ⟨g1, m1, gy⟩ := v
    obtain ⟨a1, a2, a3, a4, a5, a6⟩ := gradient_facts h1 hs.exist
    have hgr1 := hI.grows.trans a1
    have hac : lift (g1.access y) = .ok n := lift_ok.2 (access_some.2 (hgr1.1 _ _ hn))
    simp only [hac] at h
    split at h
    · rename_i h2
      cases h
      exact .inr ⟨⟨⟨n, hn, hnd⟩, hyp⟩, n, g1, gy, hn, hgr1, a3, h2⟩
    · rename_i v h2
      obtain ⟨g2, gxs⟩ := v
      obtain ⟨b1, b2, b3⟩ := hW hgr1 hn hnd a3 h2
      have hac2 : lift (g2.access y) = .ok n := lift_ok.2 (access_some.2 ((hgr1.trans b1).1 _ _ hn))
      simp only [hac2] at h
      obtain ⟨info, hm, _⟩ := hyg
      obtain ⟨_, _, n', hn', hdom⟩ := hI.entry y info hm
      rw [hn] at hn'; cases hn'
      obtain ⟨r, hr⟩ := register_total (g := g2) (L := n.bpInputs.zip gxs) (m := m1) (heap := s.heap.erase y) (by
        intro e he
        have hei := (List.of_mem_zip (show (e.1, e.2) ∈ _ from he)).1
        refine ⟨a6 _ (hdom hnd _ hei), ?_⟩
        obtain ⟨c, hc, _⟩ := (hg y n hn).2 _ hei
        exact grows_lt (hgr1.trans b1) (List.getElem?_eq_some_iff.1 hc).1)
      rw [hr] at h
      cases h

theorem bpVisit_struct (hW : GradWellFormed g0 O.opGrad) (hG : G → GradGiven g0 xs O.opGrad) (hg : BpDag g0)
    {s s' : BpState Op} {y : Nat} (hs : Struct G g0 ys xs s) (hy : y ∈ s.heap) (hmax : ∀ h ∈ s.heap, rk g0 h ≤ rk g0 y)
    (h : bpVisit O s y = .ok s') : s'.log = s.log ++ [y] ∧ Struct G g0 ys xs s' := by
  obtain ⟨C, hI⟩ := hs.inv
  obtain ⟨hlog, hinv'⟩ := bpVisit_inv (existence_sound hW) hg hI hy hmax h
  refine ⟨hlog, ?_⟩
  obtain ⟨⟨n, hn, hnd⟩, hyp, info, hm, hne⟩ := hI.heapIn y hy
  simp only [bpVisit, bind_ok, lift_ok] at h
  obtain ⟨⟨g1, m1, gy⟩, h1, n1, h2, ⟨g2, gxs⟩, h3, n2, h4, ⟨m2, heap2⟩, h5, h6⟩ := h
  cases h6
  dsimp only at h2 h3 h4 h5 hinv' hlog
  obtain ⟨a1, a2, a3, a4, a5, a6⟩ := gradient_facts h1 hs.exist
  have hgr1 := hI.grows.trans a1
  have e1 : n1 = n := by
    have := hgr1.1 _ _ hn
    rw [access_some.1 h2] at this; cases this; rfl
  subst e1
  obtain ⟨b1, b2, b3⟩ := hW hgr1 hn hnd a3 h3
  have e2 : n2 = n1 := by
    have := (hgr1.trans b1).1 _ _ hn
    rw [access_some.1 h4] at this; cases this; rfl
  subst e2
  obtain ⟨c1, c2, c3⟩ := register_facts h5
  refine ⟨hinv', ?_, fun y hy => c1 _ (a4 _ (hs.ysGrad y hy)), ?_, ?_⟩
  · intro hg1 p hp b hb hl
    rcases List.mem_append.1 hp with hp | hp
    · exact c1 _ (a4 _ (hs.fed hg1 p hp b hb hl))
    · rw [List.mem_singleton.1 hp] at hb
      obtain ⟨i, hi, rfl⟩ := (bpInput_iff hn).1 hb
      obtain ⟨k, hk, hik⟩ := List.getElem_of_mem hi
      obtain ⟨t, ht⟩ := hG hg1 hgr1 hn hnd a3 h3 k i (by rw [List.getElem?_eq_getElem hk, hik]) hl
      refine c3 i t ?_ ?_
      · obtain ⟨hk', ht'⟩ := List.getElem?_eq_some_iff.1 ht
        refine List.mem_iff_getElem.2 ⟨k, by simp; omega, ?_⟩
        rw [List.getElem_zip, hik, ht']
      · rw [← a5]
        obtain ⟨_, _, n', hn', hdom⟩ := hI.entry y info hm
        rw [hn] at hn'; cases hn'
        obtain ⟨infoi, hmi⟩ := Option.isSome_iff_exists.1 (hdom hnd i hi)
        exact ⟨infoi, hmi, (hI.entry _ _ hmi).1.2 hl⟩
  · intro k hk
    rcases List.mem_append.1 hk with hk | hk
    · exact c1 _ (a4 _ (hs.logGrad k hk))
    · rw [List.mem_singleton.1 hk]
      exact c1 _ (a4 _ ⟨info, hm, hne⟩)
  · intro k hk
    have hreach := hs.reached
    by_contra hno
    have hmk : s.m k = none := by
      cases hmk : s.m k with
      | none => rfl
      | some v => exact absurd (hreach k (by simp [hmk])) hno
    have h1' : m1 k = none := by
      unfold gradient at h1
      rw [hm] at h1
      have hky : k ≠ y := by rintro rfl; rw [hm] at hmk; cases hmk
      cases hgs : info.gradients with
      | nil => exact absurd hgs hne
      | cons a as =>
        cases as with
        | nil => simp only [hgs] at h1; cases h1; exact hmk
        | cons b bs =>
          simp only [hgs, bind_ok, lift_ok] at h1
          obtain ⟨⟨ga, sa⟩, _, h8⟩ := h1
          cases h8
          simp [GMap.insert, hky, hmk]
    have : ∀ {L : List (Incoming × Option Nat)} {m m' : GMap} {hp hp' : List Nat}, register g2 L (m, hp) = .ok (m', hp') →
        m k = none → m' k = none := by
      intro L
      induction L with
      | nil => intro m m' hp hp' h hm; simp only [register] at h; cases h; exact hm
      | cons e L ih =>
        intro m m' hp hp' h hm
        obtain ⟨i, gx⟩ := e
        simp only [register, bind_ok, lift_ok] at h
        obtain ⟨nx, _, h⟩ := h
        cases hmi : m i.id with
        | none => simp only [hmi] at h; cases h
        | some inf =>
          simp only [hmi] at h
          split at h
          · cases gx with
            | none => exact ih h hm
            | some t =>
              simp only [pushGrad, hmi, bind_ok] at h
              obtain ⟨mm, h0, h⟩ := h
              cases h0
              refine ih h ?_
              have : k ≠ i.id := by rintro rfl; rw [hmi] at hm; cases hm
              simp [GMap.insert, this, hm]
          · exact ih h hm
    have := this h5 h1'
    change (m2 k).isSome at hk
    rw [this] at hk
    cases hk

/-- Panics that the loop can end with. -/
def LoopPanic (O : GradOps Op) (g0 : Graph Op) (ys xs : List Nat) (p : GPanic) : Prop :=
  p = .graph .graphTooLarge ∨ ∃ y, IsDiff g0 y ∧ (y ∈ ys ∨ Leads g0 xs y ∧ ¬ IsSource g0 y) ∧ OpGradFails O g0 y p

theorem log_length {s : BpState Op} (hs : Struct G g0 ys xs s) : s.log.length + s.heap.length ≤ g0.nodes.length := by
  obtain ⟨C, hI⟩ := hs.inv
  have hnd : (s.log ++ s.heap).Nodup := by
    refine List.nodup_append.2 ⟨hI.logNodup, hI.heapNodup, ?_⟩
    rintro a ha b hb rfl
    exact hI.logHeap a ha hb
  have hsub : (s.log ++ s.heap) ⊆ List.range g0.nodes.length := by
    intro k hk
    have : IsDiff g0 k := by
      rcases List.mem_append.1 hk with h | h
      · exact (hI.logIn k h).1
      · exact (hI.heapIn k h).1
    obtain ⟨n, hn, _⟩ := this
    exact List.mem_range.2 (List.getElem?_eq_some_iff.1 hn).1
  have := (List.subperm_of_subset hnd hsub).length_le
  simpa using this

/-- A bound on the number of visits bounds the iterations. -/
theorem bpLoop_bounded {M : Nat} (hM : ∀ s : BpState Op, Struct G g0 ys xs s → s.log.length ≤ M) (hW : GradWellFormed g0 O.opGrad) (hG : G → GradGiven g0 xs O.opGrad) (hg : BpDag g0)
    {pick : Graph Op → List Nat → Nat} (hpick : PicksMax pick) :
    ∀ {fuel : Nat} {s : BpState Op}, Struct G g0 ys xs s → M < fuel + s.log.length →
      (∃ s', bpLoop O pick fuel s = some (.ok s') ∧ s'.heap = [] ∧ Struct G g0 ys xs s') ∨
      (∃ p, bpLoop O pick fuel s = some (.error p) ∧ LoopPanic O g0 ys xs p) := by
  intro fuel
  induction fuel with
  | zero =>
    intro s hs hlt
    have := hM s hs
    omega
  | succ fuel ih =>
    intro s hs hlt
    simp only [bpLoop]
    split
    · rename_i he
      exact .inl ⟨s, rfl, he, hs⟩
    · rename_i he
      obtain ⟨hy, hmax⟩ := hpick s.g s.heap he
      cases hv : bpVisit O s (pick s.g s.heap) with
      | error p =>
        refine .inr ⟨p, rfl, ?_⟩
        rcases bpVisit_total hW hg hs hy hv with h | ⟨⟨h1, h2⟩, h3⟩
        · exact .inl h
        · exact .inr ⟨_, h1, h2, h3⟩
      | ok s1 =>
        have hrank : ∀ k ∈ s.heap, HasRank s.g k (rk g0 k) := by
          obtain ⟨C, hI⟩ := hs.inv
          intro k hk
          obtain ⟨⟨n, hn, _⟩, _⟩ := hI.heapIn k hk
          exact ⟨n, hI.grows.1 _ _ hn, (rk_eq hn).symm⟩
        obtain ⟨h1, h2⟩ := bpVisit_struct hW hG hg hs hy (fun k hk => hmax k hk _ _ (hrank k hk) (hrank _ hy)) hv
        refine ih h2 ?_
        rw [h1, List.length_append, List.length_singleton]
        omega

theorem bpLoop_total (hW : GradWellFormed g0 O.opGrad) (hG : G → GradGiven g0 xs O.opGrad) (hg : BpDag g0)
    {pick : Graph Op → List Nat → Nat} (hpick : PicksMax pick) {fuel : Nat} {s : BpState Op} (hs : Struct G g0 ys xs s) (hf : g0.nodes.length < fuel + s.log.length) :
    (∃ s', bpLoop O pick fuel s = some (.ok s') ∧ s'.heap = [] ∧ Struct G g0 ys xs s') ∨
    (∃ p, bpLoop O pick fuel s = some (.error p) ∧ LoopPanic O g0 ys xs p) :=
  bpLoop_bounded (fun _ h => le_trans (Nat.le_add_right _ _) (log_length h)) hW hG hg hpick hs hf

theorem bpLoop_struct (hW : GradWellFormed g0 O.opGrad) (hG : G → GradGiven g0 xs O.opGrad) (hg : BpDag g0)
    {pick : Graph Op → List Nat → Nat} (hpick : PicksMax pick) :
    ∀ {fuel : Nat} {s s' : BpState Op}, Struct G g0 ys xs s → bpLoop O pick fuel s = some (.ok s') →
      s'.heap = [] ∧ Struct G g0 ys xs s' := by
  intro fuel
  induction fuel with
  | zero => intro s s' _ h; cases h
  | succ fuel ih =>
    intro s s' hs h
    simp only [bpLoop] at h
    split at h
    · rename_i he
      cases h
      exact ⟨he, hs⟩
    · rename_i he
      obtain ⟨hy, hmax⟩ := hpick s.g s.heap he
      cases hv : bpVisit O s (pick s.g s.heap) with
      | error p => rw [hv] at h; cases h
      | ok s1 =>
        rw [hv] at h
        have hrank : ∀ k ∈ s.heap, HasRank s.g k (rk g0 k) := by
          obtain ⟨C, hI⟩ := hs.inv
          intro k hk
          obtain ⟨⟨n, hn, _⟩, _⟩ := hI.heapIn k hk
          exact ⟨n, hI.grows.1 _ _ hn, (rk_eq hn).symm⟩
        obtain ⟨h1, h2⟩ := bpVisit_struct hW hG hg hs hy (fun k hk => hmax k hk _ _ (hrank k hk) (hrank _ hy)) hv
        exact ih h2 h

/-- Every reached tensor that leads to `xs` has a gradient at the end. -/
theorem reached_hasGrad {s : BpState Op} (hG : G) (hs : Struct G g0 ys xs s) (he : s.heap = []) (hg : BpDag g0) :
    ∀ {k}, ReachedFrom g0 ys k → Leads g0 xs k → HasGrad s.m k := by
  obtain ⟨C, hI⟩ := hs.inv
  intro k hk
  induction hk with
  | here hy => intro _; exact hs.ysGrad _ hy
  | @step p k hp hpd hpk ih =>
    intro hl
    obtain ⟨info, h1, h2⟩ := ih (.there hpd hpk hl)
    rcases hI.seen p info h1 h2 with h | h | h
    · rw [he] at h; cases h
    · exact hs.fed hG p h k hpk hl
    · exfalso
      obtain ⟨n, hn, hin⟩ := h
      obtain ⟨i, hi, _⟩ := (bpInput_iff hn).1 hpk
      rw [(hg p n hn).1 hin] at hi
      cases hi

theorem pushAll_total : ∀ {ps : List (Nat × Nat)} {m : GMap}, (∀ y ∈ ps.map Prod.fst, (m y).isSome) → ∃ m', pushAll ps m = .ok m' := by
  intro ps
  induction ps with
  | nil => intro m _; exact ⟨m, rfl⟩
  | cons p ps ih =>
    intro m h
    obtain ⟨y, gy⟩ := p
    obtain ⟨info, hm⟩ := Option.isSome_iff_exists.1 (h y (by simp))
    obtain ⟨m', hm'⟩ := ih (m := m.insert y { info with gradients := info.gradients ++ [gy] }) (fun z hz =>
      domLe_insert _ _ _ _ (h z (by simp at hz ⊢; exact .inr hz)))
    exact ⟨m', by simp only [pushAll, pushGrad, hm, bind, Except.bind]; exact hm'⟩

theorem start_struct {g : Graph Op} (hgr : Grows g0 g) {m m' : GMap} (hm : MapOk g0 xs m) {ps : List (Nat × Nat)}
    (hnd : (ps.map Prod.fst).Nodup) (hd : ∀ y ∈ ps.map Prod.fst, IsDiff g0 y) (hin : ∀ y ∈ ps.map Prod.fst, (m y).isSome)
    (hreach : ∀ k, (m k).isSome → ReachedFrom g0 (ps.map Prod.fst) k)
    (hrep : ∀ p ∈ ps, p.2 < g.nodes.length) (h : pushAll ps m = .ok m') :
    Struct G g0 (ps.map Prod.fst) xs ⟨g, m', ps.map Prod.fst, []⟩ := by
  obtain ⟨C, hI⟩ := start_inv (K := existence Op) (cy := fun _ => 0) hgr hm hnd hd hin hreach (fun p hp => hrep p hp) h
  refine ⟨⟨C, hI⟩, by simp, fun y hy => (hI.heapIn y hy).2.2, by simp, ?_⟩
  intro k hk
  obtain ⟨info', hk'⟩ := Option.isSome_iff_exists.1 hk
  obtain ⟨info, h1, _⟩ := (pushAll_ok hnd h k).1 info' hk'
  exact hreach k (by simp [h1])

theorem IsApp.mono {g g' : Graph Op} {t : Nat} {op : Op} {l : List Nat} (h : Grows g g') (ht : IsApp g t op l) : IsApp g' t op l := by
  obtain ⟨n, h1, h2⟩ := ht
  exact ⟨n, h.1 _ _ h1, h2⟩

theorem _root_.Verif.Spec.ZerosLike.mono {g g' : Graph Op} {x t : Nat} (h : Grows g g') (ht : ZerosLike O.zeros O.shapeOp g x t) : ZerosLike O.zeros O.shapeOp g' x t := by
  obtain ⟨n, s, h1, h2, h3⟩ := ht
  exact ⟨n, s, h.1 _ _ h1, IsApp.mono h h2, h3.imp id (IsApp.mono h)⟩

theorem gradient_keep {g g' : Graph Op} {m m' : GMap} {k gy : Nat} (h : gradient O g m k = .ok (g', m', gy)) :
    Grows g g' ∧ (∀ j, m j = none → m' j = none) ∧ ∀ j, Marked m j ↔ Marked m' j := by
  unfold gradient at h
  cases hm : m k with
  | none => rw [hm] at h; cases h
  | some info =>
    rw [hm] at h
    cases hgs : info.gradients with
    | nil => simp only [hgs] at h; cases h
    | cons a as =>
      cases as with
      | nil =>
        simp only [hgs] at h
        cases h
        exact ⟨grows_refl _, fun _ => id, fun _ => .rfl⟩
      | cons b bs =>
        simp only [hgs, bind_ok, lift_ok] at h
        obtain ⟨⟨g1, s⟩, h1, h2⟩ := h
        simp only [Except.ok.injEq, Prod.mk.injEq] at h2
        obtain ⟨rfl, rfl, rfl⟩ := h2
        refine ⟨(addN_ok h1).1, ?_, ?_⟩
        · intro j hj
          have : j ≠ k := by rintro rfl; rw [hm] at hj; cases hj
          simp [GMap.insert, this, hj]
        · intro j
          by_cases e : j = k
          · subst e
            constructor
            · rintro ⟨info', a, b⟩
              rw [hm] at a; cases a
              exact ⟨_, insert_self _ _ _, b⟩
            · rintro ⟨info', a, b⟩
              rw [insert_self] at a
              cases a
              exact ⟨info, hm, b⟩
          · simp only [Marked, GMap.insert, e, if_false]

theorem extractAll_zeros : ∀ {xs : List Nat} {g g' : Graph Op} {m : GMap} {ts : List Nat}, extractAll O xs g m = .ok (g', ts) →
    Grows g g' ∧ List.Forall₂ (fun x t => ¬ Marked m x → ZerosLike O.zeros O.shapeOp g' x t) xs ts := by
  intro xs
  induction xs with
  | nil => intro g g' m ts h; simp only [extractAll] at h; cases h; exact ⟨grows_refl _, .nil⟩
  | cons x xs ih =>
    intro g g' m ts h
    simp only [extractAll, bind_ok] at h
    obtain ⟨⟨g1, m1, t⟩, h1, ⟨g2, ts'⟩, h2, h3⟩ := h
    cases h3
    dsimp only at h2
    have hz : ∀ {ga z}, zerosLike O g x = .ok (ga, z) → Grows g ga ∧ ZerosLike O.zeros O.shapeOp ga x z := by
      intro ga z hz
      obtain ⟨a1, n, s, a2, a3, a4⟩ := zerosLike_ok hz
      exact ⟨a1, n, s, a1.1 _ _ a2, a3, a4⟩
    have head : Grows g g1 ∧ (∀ j, Marked m j ↔ Marked m1 j) ∧ (¬ Marked m x → ZerosLike O.zeros O.shapeOp g1 x t) := by
      unfold extractOne at h1
      cases hm : m x with
      | none =>
        simp only [hm, bind_ok, lift_ok] at h1
        obtain ⟨⟨ga, z⟩, h3, h4⟩ := h1
        cases h4
        exact ⟨(hz h3).1, fun _ => .rfl, fun _ => (hz h3).2⟩
      | some info =>
        simp only [hm] at h1
        by_cases hp : info.onPath = true
        · rw [if_pos hp] at h1
          obtain ⟨a, _, b⟩ := gradient_keep h1
          exact ⟨a, b, fun h => absurd ⟨info, hm, hp⟩ h⟩
        · rw [if_neg hp] at h1
          simp only [bind_ok, lift_ok] at h1
          obtain ⟨⟨ga, z⟩, h3, h4⟩ := h1
          cases h4
          exact ⟨(hz h3).1, fun _ => .rfl, fun _ => (hz h3).2⟩
    obtain ⟨a, b, c⟩ := head
    obtain ⟨d, e⟩ := ih h2
    refine ⟨a.trans d, .cons (fun h => (c h).mono d) (e.imp fun x' t' h hn => h (fun hm => hn ((b x').2 hm)))⟩

end Verif.Gradient
