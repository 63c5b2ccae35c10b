import Verif.Model.Gradient
import Verif.Spec.Gradient
import Verif.Lemmas.Graph

/-! # `init_gradient_map` marks exactly the tensors between `ys` and `xs` -/

namespace Verif.Gradient
open Verif Verif.Spec Verif.Graph Relation
variable {Op : Type}

theorem lift_ok {α : Type} {e : Except Panic α} {a : α} : lift e = .ok a ↔ e = .ok a := by
  cases e <;> simp [lift]

theorem access_some {g : Graph Op} {id : Nat} {n : Node Op} : g.access id = .ok n ↔ g.nodes[id]? = some n := by
  unfold access
  cases h : g.nodes[id]? <;> simp

/-- Runs of the depth-first search. -/
def InitSteps (g : Graph Op) (xs : List Nat) : List (Nat × Bool) × GMap → List (Nat × Bool) × GMap → Prop :=
  ReflTransGen (fun s s' => initStep g xs s = .ok (some s'))

/-- Invariant of the map during the search. -/
def MapOk (g : Graph Op) (xs : List Nat) (m : GMap) : Prop :=
  ∀ k info, m k = some info → info.gradients = [] ∧ (info.onPath = true ↔ Leads g xs k) ∧
    ∃ n, g.nodes[k]? = some n ∧ (n.differentiable = true → ∀ i ∈ n.bpInputs, (m i.id).isSome)

/-- The domain of the map grows. -/
def DomLe (m m' : GMap) : Prop := ∀ k, (m k).isSome → (m' k).isSome

theorem DomLe.refl (m : GMap) : DomLe m m := fun _ h => h
theorem DomLe.trans {a b c : GMap} (h1 : DomLe a b) (h2 : DomLe b c) : DomLe a c := fun k h => h2 k (h1 k h)
theorem domLe_insert (m : GMap) (k : Nat) (v : Info) : DomLe m (m.insert k v) := by
  intro j h
  unfold GMap.insert
  split
  · rfl
  · exact h

theorem leads_diff {g : Graph Op} {xs : List Nat} {a : Nat} (h : Leads g xs a) : IsDiff g a := by
  cases h <;> assumption

theorem leads_iff {g : Graph Op} {xs : List Nat} {a : Nat} :
    Leads g xs a ↔ IsDiff g a ∧ (a ∈ xs ∨ ∃ b, BpInput g a b ∧ Leads g xs b) := by
  constructor
  · intro h
    cases h with
    | here h1 h2 => exact ⟨h1, .inl h2⟩
    | there h1 h2 h3 => exact ⟨h1, .inr ⟨_, h2, h3⟩⟩
  · rintro ⟨h1, h2 | ⟨b, h2, h3⟩⟩
    · exact .here h1 h2
    · exact .there h1 h2 h3

theorem isDiff_iff {g : Graph Op} {a : Nat} {n : Node Op} (hn : g.nodes[a]? = some n) : IsDiff g a ↔ n.differentiable = true := by
  constructor
  · rintro ⟨n', h, hd⟩; rw [hn] at h; cases h; exact hd
  · exact fun h => ⟨n, hn, h⟩

theorem isSource_iff {g : Graph Op} {a : Nat} {n : Node Op} (hn : g.nodes[a]? = some n) : IsSource g a ↔ n.incoming = [] := by
  constructor
  · rintro ⟨n', h, hd⟩; rw [hn] at h; cases h; exact hd
  · exact fun h => ⟨n, hn, h⟩

theorem bpInput_iff {g : Graph Op} {a b : Nat} {n : Node Op} (hn : g.nodes[a]? = some n) :
    BpInput g a b ↔ ∃ i ∈ n.bpInputs, i.id = b := by
  constructor
  · rintro ⟨n', h, hd⟩; rw [hn] at h; cases h; exact hd
  · exact fun h => ⟨n, hn, h⟩

/-- Inserting a correct entry. -/
theorem MapOk.insert {g : Graph Op} {xs : List Nat} {m : GMap} (hm : MapOk g xs m) {k : Nat} {n : Node Op} {b : Bool}
    (hn : g.nodes[k]? = some n) (hb : b = true ↔ Leads g xs k)
    (hc : n.differentiable = true → ∀ i ∈ n.bpInputs, (m i.id).isSome) : MapOk g xs (m.insert k ⟨[], b⟩) := by
  intro j info hj
  unfold GMap.insert at hj
  split at hj
  · rename_i e
    cases hj
    subst e
    exact ⟨rfl, hb, n, hn, fun hd i hi => domLe_insert _ _ _ _ (hc hd i hi)⟩
  · obtain ⟨h1, h2, n', h3, h4⟩ := hm j info hj
    exact ⟨h1, h2, n', h3, fun hd i hi => domLe_insert _ _ _ _ (h4 hd i hi)⟩

/-- `has_child_on_path` decides whether some child leads to `xs`. -/
theorem hasChildOnPath_ok {g : Graph Op} {xs : List Nat} {m : GMap} (hm : MapOk g xs m) :
    ∀ {is : List Incoming}, (∀ i ∈ is, (m i.id).isSome) →
      ∃ b, hasChildOnPath m is = .ok b ∧ (b = true ↔ ∃ i ∈ is, Leads g xs i.id) := by
  intro is
  induction is with
  | nil => intro _; exact ⟨false, rfl, by simp⟩
  | cons i is ih =>
    intro h
    obtain ⟨info, hi⟩ := Option.isSome_iff_exists.1 (h i (by simp))
    have h2 := (hm _ _ hi).2.1
    by_cases hp : info.onPath = true
    · exact ⟨true, by simp [hasChildOnPath, hi, hp], by simp [h2.1 hp]⟩
    · obtain ⟨b, hb, hb'⟩ := ih (fun j hj => h j (by simp [hj]))
      refine ⟨b, by simp [hasChildOnPath, hi, hp, hb], ?_⟩
      rw [hb']
      have h3 : ¬ Leads g xs i.id := fun h => hp (h2.2 h)
      simp [h3]

/-- The loop over the children when `curr` is not yet in the map. -/
theorem pushChildren_new {g : Graph Op} (hg : BpDag g) {xs : List Nat} {curr : Nat} :
    ∀ {is : List Incoming} {stack : List (Nat × Bool)} {m : GMap}, m curr = none →
      (∀ i ∈ is, ∃ c, g.nodes[i.id]? = some c ∧ i.id ≠ curr) → MapOk g xs m →
      ∃ (kids : List Nat) (m' : GMap), pushChildren g xs curr is (stack, m) = .ok (kids.map (fun k => (k, false)) ++ stack, m') ∧
        (∀ k ∈ kids, ∃ i ∈ is, i.id = k) ∧ (∀ i ∈ is, i.id ∈ kids ∨ (m' i.id).isSome) ∧ MapOk g xs m' ∧ DomLe m m' := by
  intro is
  induction is with
  | nil => intro stack m _ _ hm; exact ⟨[], m, rfl, by simp, by simp, hm, .refl _⟩
  | cons i is ih =>
    intro stack m hc hex hm
    obtain ⟨c, hcn, hne⟩ := hex i (by simp)
    have hac : lift (g.access i.id) = .ok c := lift_ok.2 (access_some.2 hcn)
    by_cases hs : (c.isSource || !c.differentiable) = true
    · have hins : MapOk g xs (m.insert i.id ⟨[], c.differentiable && decide (i.id ∈ xs)⟩) := by
        refine hm.insert hcn ?_ ?_
        · rw [leads_iff, isDiff_iff hcn]
          constructor
          · intro h
            simp at h
            exact ⟨h.1, .inl h.2⟩
          · rintro ⟨h1, h2 | ⟨b, h2, h3⟩⟩
            · simp [h1, h2]
            · simp [h1, Node.isSource] at hs
              have := (hg _ _ hcn).1 hs
              rw [bpInput_iff hcn, this] at h2
              simp at h2
        · intro hd j hj
          simp [hd, Node.isSource] at hs
          rw [(hg _ _ hcn).1 hs] at hj
          simp at hj
      have hc' : (m.insert i.id ⟨[], c.differentiable && decide (i.id ∈ xs)⟩) curr = none := by
        unfold GMap.insert; rw [if_neg (fun h => hne h.symm)]; exact hc
      obtain ⟨kids, m', h1, h2, h3, h4, h5⟩ := ih (stack := stack) hc' (fun j hj => hex j (by simp [hj])) hins
      refine ⟨kids, m', ?_, fun k hk => ?_, ?_, h4, (domLe_insert _ _ _).trans h5⟩
      · simp only [pushChildren, hac, bind, Except.bind, hc, Option.isNone_none, if_true, hs]
        exact h1
      · obtain ⟨j, hj, e⟩ := h2 k hk; exact ⟨j, by simp [hj], e⟩
      · intro j hj
        rcases List.mem_cons.1 hj with rfl | hj
        · exact .inr (h5 _ (by simp [GMap.insert]))
        · exact h3 j hj
    · obtain ⟨kids, m', h1, h2, h3, h4, h5⟩ := ih (stack := (i.id, false) :: stack) hc (fun j hj => hex j (by simp [hj])) hm
      refine ⟨kids ++ [i.id], m', ?_, fun k hk => ?_, ?_, h4, h5⟩
      · simp only [pushChildren, hac, bind, Except.bind, hc, Option.isNone_none, if_true, hs]
        rw [if_neg (by simp), h1]; simp
      · rcases List.mem_append.1 hk with hk | hk
        · obtain ⟨j, hj, e⟩ := h2 k hk; exact ⟨j, by simp [hj], e⟩
        · exact ⟨i, by simp, (List.mem_singleton.1 hk).symm⟩
      · intro j hj
        rcases List.mem_cons.1 hj with rfl | hj
        · exact .inl (by simp)
        · rcases h3 j hj with h | h
          · exact .inl (by simp [h])
          · exact .inr h

/-- The loop over the children does nothing when `curr` is in the map. -/
theorem pushChildren_old {g : Graph Op} {xs : List Nat} {curr : Nat} :
    ∀ {is : List Incoming} {stack : List (Nat × Bool)} {m : GMap}, (m curr).isSome →
      (∀ i ∈ is, ∃ c, g.nodes[i.id]? = some c) → pushChildren g xs curr is (stack, m) = .ok (stack, m) := by
  intro is
  induction is with
  | nil => intro _ _ _ _; rfl
  | cons i is ih =>
    intro stack m hc hex
    obtain ⟨c, hcn⟩ := hex i (by simp)
    have hac : lift (g.access i.id) = .ok c := lift_ok.2 (access_some.2 hcn)
    have hn : (m curr).isNone = false := by
      cases h : m curr <;> simp_all
    simp only [pushChildren, hac, bind, Except.bind, hn]
    rw [if_neg (by simp)]
    exact ih hc (fun j hj => hex j (by simp [hj]))

/-- The visit of a tensor whose children are in the map. -/
theorem initVisit {g : Graph Op} {xs : List Nat} {m : GMap} (hm : MapOk g xs m) {k : Nat} {n : Node Op}
    (hn : g.nodes[k]? = some n) (hc : n.differentiable = true → ∀ i ∈ n.bpInputs, (m i.id).isSome) (st : List (Nat × Bool)) :
    ∃ m', initStep g xs ((k, true) :: st, m) = .ok (some (st, m')) ∧ MapOk g xs m' ∧ DomLe m m' ∧ (m' k).isSome := by
  have hac : lift (g.access k) = .ok n := lift_ok.2 (access_some.2 hn)
  have key : ∃ b, (if n.differentiable = true then (if k ∈ xs then .ok true else hasChildOnPath m n.bpInputs) else .ok false :
      Except GPanic Bool) = .ok b ∧ (b = true ↔ Leads g xs k) := by
    rw [leads_iff, isDiff_iff hn]
    by_cases hd : n.differentiable = true
    · by_cases hx : k ∈ xs
      · exact ⟨true, by simp [hd, hx], by simp [hd, hx]⟩
      · obtain ⟨b, hb, hb'⟩ := hasChildOnPath_ok hm (hc hd)
        refine ⟨b, by simp [hd, hx, hb], ?_⟩
        rw [hb']
        constructor
        · rintro ⟨i, hi, h⟩; exact ⟨hd, .inr ⟨i.id, (bpInput_iff hn).2 ⟨i, hi, rfl⟩, h⟩⟩
        · rintro ⟨_, h | ⟨b, h1, h2⟩⟩
          · exact absurd h hx
          · obtain ⟨i, hi, rfl⟩ := (bpInput_iff hn).1 h1; exact ⟨i, hi, h2⟩
    · exact ⟨false, by simp [hd], by simp [hd]⟩
  obtain ⟨b, h1, h2⟩ := key
  refine ⟨m.insert k ⟨[], b⟩, ?_, hm.insert hn h2 hc, domLe_insert _ _ _, by simp [GMap.insert]⟩
  simp only [initStep, hac, bind, Except.bind]
  by_cases hd : n.differentiable = true
  · rw [if_pos hd] at h1
    rw [if_pos hd, h1]
  · rw [if_neg hd] at h1
    cases h1
    rw [if_neg hd]

/-- Processing one stack entry terminates and puts the tensor into the map. -/
theorem initBig {g : Graph Op} (hg : BpDag g) {xs : List Nat} :
    ∀ (r : Nat) (k : Nat) (n : Node Op), g.nodes[k]? = some n → n.topoRank = r → ∀ (st : List (Nat × Bool)) (m : GMap), MapOk g xs m →
      ∃ m', InitSteps g xs ((k, false) :: st, m) (st, m') ∧ MapOk g xs m' ∧ DomLe m m' ∧ (m' k).isSome := by
  intro r
  induction r using Nat.strong_induction_on with
  | _ r ih =>
    intro k n hn hr st m hm
    have hac : lift (g.access k) = .ok n := lift_ok.2 (access_some.2 hn)
    have hch := (hg k n hn).2
    cases hmk : m k with
    | none =>
      have hex : ∀ i ∈ n.bpInputs, ∃ c, g.nodes[i.id]? = some c ∧ i.id ≠ k := by
        intro i hi
        obtain ⟨c, h1, h2⟩ := hch i hi
        refine ⟨c, h1, ?_⟩
        rintro e; rw [e, hn] at h1; cases h1; omega
      obtain ⟨kids, m1, h1, h2, h3, h4, h5⟩ := pushChildren_new hg (stack := (k, true) :: st) hmk hex hm
      -- process the pushed children
      have hk : ∀ (kids : List Nat) (m : GMap), MapOk g xs m → (∀ j ∈ kids, ∃ i ∈ n.bpInputs, i.id = j) →
          ∃ m', InitSteps g xs (kids.map (fun j => (j, false)) ++ (k, true) :: st, m) ((k, true) :: st, m') ∧
            MapOk g xs m' ∧ DomLe m m' ∧ ∀ j ∈ kids, (m' j).isSome := by
        intro kids
        induction kids with
        | nil => intro m hm _; exact ⟨m, .refl, hm, .refl _, by simp⟩
        | cons j js ihj =>
          intro m hm hjs
          obtain ⟨i, hi, rfl⟩ := hjs j (by simp)
          obtain ⟨c, hc1, hc2⟩ := hch i hi
          obtain ⟨m1, a1, a2, a3, a4⟩ := ih c.topoRank (by omega) i.id c hc1 rfl (js.map (fun j => (j, false)) ++ (k, true) :: st) m hm
          obtain ⟨m2, b1, b2, b3, b4⟩ := ihj m1 a2 (fun j hj => hjs j (by simp [hj]))
          refine ⟨m2, a1.trans b1, b2, a3.trans b3, ?_⟩
          intro j hj
          rcases List.mem_cons.1 hj with rfl | hj
          · exact b3 _ a4
          · exact b4 j hj
      obtain ⟨m2, a1, a2, a3, a4⟩ := hk kids m1 h4 h2
      have hc : ∀ i ∈ n.bpInputs, (m2 i.id).isSome := by
        intro i hi
        rcases h3 i hi with h | h
        · exact a4 _ h
        · exact a3 _ h
      obtain ⟨m3, b1, b2, b3, b4⟩ := initVisit a2 hn (fun _ => hc) st
      refine ⟨m3, ?_, b2, (h5.trans a3).trans b3, b4⟩
      refine .head ?_ (a1.tail b1)
      simp only [initStep, hac, bind, Except.bind, h1]
    | some info =>
      obtain ⟨_, _, n', hn', hc⟩ := hm k info hmk
      rw [hn] at hn'; cases hn'
      obtain ⟨m3, b1, b2, b3, b4⟩ := initVisit hm hn hc st
      refine ⟨m3, ?_, b2, b3, b4⟩
      refine .head ?_ (.single b1)
      simp only [initStep, hac, bind, Except.bind]
      rw [pushChildren_old (by simp [hmk]) (fun i hi => (hch i hi).imp fun _ h => h.1)]

theorem initLoop_of_steps {g : Graph Op} {xs : List Nat} {s : List (Nat × Bool) × GMap} {m : GMap}
    (h : InitSteps g xs s ([], m)) : ∃ N, (∀ fuel, N ≤ fuel → initLoop g xs fuel s = some (.ok m)) ∧
      ∀ fuel r, initLoop g xs fuel s = some r → r = .ok m := by
  induction h using ReflTransGen.head_induction_on with
  | refl =>
    refine ⟨1, ?_, ?_⟩
    · intro fuel hf
      obtain ⟨k, rfl⟩ := Nat.exists_eq_add_of_le' hf
      rfl
    · intro fuel r h
      cases fuel with
      | zero => cases h
      | succ k =>
        simp only [initLoop, initStep] at h
        cases h; rfl
  | head hs _ ih =>
    obtain ⟨N, h1, h2⟩ := ih
    refine ⟨N + 1, ?_, ?_⟩
    · intro fuel hf
      obtain ⟨k, rfl⟩ := Nat.exists_eq_add_of_le' (Nat.le_trans (Nat.succ_le_succ (Nat.zero_le N)) hf)
      simp only [initLoop, hs]
      exact h1 k (by omega)
    · intro fuel r h
      cases fuel with
      | zero => cases h
      | succ k =>
        simp only [initLoop, hs] at h
        exact h2 k r h

/-- `init_gradient_map` returns, without panicking, a map that contains the `ys`, is closed under the inputs of differentiable tensors and marks
exactly the tensors that lead to `xs`. -/
theorem initMap_ok {g : Graph Op} (hg : BpDag g) {ys xs : List Nat} (hy : ∀ y ∈ ys, y < g.nodes.length) :
    ∃ m N, MapOk g xs m ∧ (∀ y ∈ ys, (m y).isSome) ∧ (∀ fuel, N ≤ fuel → initMap g ys xs fuel = some (.ok m)) ∧
      ∀ fuel r, initMap g ys xs fuel = some r → r = .ok m := by
  have key : ∀ (ys : List Nat) (m : GMap), MapOk g xs m → (∀ y ∈ ys, y < g.nodes.length) →
      ∃ m', InitSteps g xs (ys.map (fun y => (y, false)), m) ([], m') ∧ MapOk g xs m' ∧ DomLe m m' ∧ ∀ y ∈ ys, (m' y).isSome := by
    intro ys
    induction ys with
    | nil => intro m hm _; exact ⟨m, .refl, hm, .refl _, by simp⟩
    | cons y ys ih =>
      intro m hm hy
      obtain ⟨m1, a1, a2, a3, a4⟩ := initBig hg _ y _ (List.getElem?_eq_getElem (hy y (by simp))) rfl (ys.map (fun y => (y, false))) m hm
      obtain ⟨m2, b1, b2, b3, b4⟩ := ih m1 a2 (fun y h => hy y (by simp [h]))
      refine ⟨m2, a1.trans b1, b2, a3.trans b3, ?_⟩
      intro y' hy'
      rcases List.mem_cons.1 hy' with rfl | h
      · exact b3 _ a4
      · exact b4 _ h
  obtain ⟨m, h1, h2, _, h4⟩ := key ys.reverse (fun _ => none) (by intro k info h; cases h) (by simpa using hy)
  obtain ⟨N, h5, h6⟩ := initLoop_of_steps h1
  rw [List.map_reverse] at h5 h6
  exact ⟨m, N, h2, by simpa using h4, h5, h6⟩

end Verif.Gradient
