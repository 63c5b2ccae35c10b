import Verif.Lemmas.Graph

namespace Verif
open Spec Relation
variable {Op : Type}
namespace Graph

/-- Effect of `depends_on` on direct dependencies. -/
structure Redirect (g g' : Graph Op) (x : Nat) (deps : List Nat) : Prop where
  len : g'.nodes.length = g.nodes.length + 1
  node : ∃ nx i0 rest, g.nodes[x]? = some nx ∧ nx.incoming = i0 :: rest ∧
    g'.nodes[x]? = some { nx with incoming := { i0 with id := g.nodes.length } :: rest } ∧
    (∃ nc : Node Op, g'.nodes[g.nodes.length]? = some nc ∧
      nc.incoming = { id := i0.id } :: deps.map (fun d => ({ id := d } : Incoming)) ∧
      nc.variableId = none ∧ nc.placeholderName = none ∧ nc.backpropInputs = none)
  other : ∀ a, a ≠ x → a ≠ g.nodes.length → g'.nodes[a]? = g.nodes[a]?
  closedDeps : ∀ d ∈ deps, d < g.nodes.length

theorem controlDependencies_redirect {g g' : Graph Op} {cop : Op} {x t : Nat} {deps : List Nat}
    (h : g.controlDependencies cop x deps = .ok (g', t)) : Redirect g g' x deps := by
  obtain ⟨_, nx, i0, rest, r, hx, hin, hr, hl, _, hn⟩ := controlDependencies_ok h
  have hxlt := (List.getElem?_eq_some_iff.1 hx).1
  constructor
  · simp [hn]
  · refine ⟨nx, i0, rest, hx, hin, ?_, ?_⟩
    · rw [hn, List.getElem?_set]; simp; omega
    · refine ⟨({ inNodes := { id := i0.id } :: deps.map (fun d => ({ id := d } : Incoming)) } : Builder).toNode cop r,
        ?_, rfl, rfl, rfl, rfl⟩
      · rw [hn, List.getElem?_set_ne (by omega), List.getElem?_append_right (by omega)]
        simp
  · intro a hax hac
    rw [hn, List.getElem?_set_ne (by omega), List.getElem?_append]
    split
    · rfl
    · rename_i hlt
      have : ∃ k, a - g.nodes.length = k + 1 := ⟨a - g.nodes.length - 1, by omega⟩
      obtain ⟨k, hk⟩ := this
      simp [hk]; omega
  · intro d hd
    obtain ⟨m, hm, _⟩ := buildRank_ok hr ⟨d, false, 0⟩ (by simp [hd])
    exact (List.getElem?_eq_some_iff.1 hm).1

namespace Redirect
variable {g g' : Graph Op} {x : Nat} {deps : List Nat}

theorem x_lt (h : Redirect g g' x deps) : x < g.nodes.length := by
  obtain ⟨nx, i0, rest, hx, _⟩ := h.node
  exact (List.getElem?_eq_some_iff.1 hx).1

theorem closed (h : Redirect g g' x deps) (hc : Closed g) : Closed g' := by
  intro id n hn i hi
  obtain ⟨nx, i0, rest, hx, hin, hx', nc, hnc, hci, _⟩ := h.node
  have hl := h.len
  by_cases h1 : id = x
  · subst h1
    rw [hx'] at hn; cases hn
    rcases List.mem_cons.1 hi with rfl | hi
    · simp only; omega
    · have := hc _ _ hx i (by rw [hin]; simp [hi]); omega
  · by_cases h2 : id = g.nodes.length
    · subst h2
      rw [hnc] at hn; cases hn
      rw [hci] at hi
      rcases List.mem_cons.1 hi with rfl | hi
      · have := hc _ _ hx i0 (by simp [hin]); simp only; omega
      · obtain ⟨d, hd, rfl⟩ := List.mem_map.1 hi
        have := h.closedDeps d hd; simp only; omega
    · rw [h.other id h1 h2] at hn
      have := hc _ _ hn i hi; omega

/-- every old dependency is kept, possibly through the new node -/
theorem depends_mono (h : Redirect g g' x deps) {a b : Nat} (hd : DependsDirectly g a b) :
    DependsOn g' a b := by
  obtain ⟨nx, i0, rest, hx, hin, hx', nc, hnc, hci, _⟩ := h.node
  have ha := depends_lt_left hd
  obtain ⟨n, hn, i, hi, rfl⟩ := hd
  by_cases h1 : a = x
  · subst h1
    rw [hx] at hn; cases hn
    rw [hin] at hi
    rcases List.mem_cons.1 hi with rfl | hi
    · refine .tail (.single (b := g.nodes.length) ⟨_, hx', _, List.mem_cons_self .., rfl⟩) ⟨nc, hnc, ⟨i.id, false, 0⟩, ?_, rfl⟩
      simp [hci]
    · exact .single ⟨_, hx', i, by simp [hi], rfl⟩
  · exact .single ⟨n, by rw [h.other a h1 (by omega), hn], i, hi, rfl⟩

theorem dependsOn_mono (h : Redirect g g' x deps) {a b : Nat} (hd : DependsOn g a b) :
    DependsOn g' a b := by
  induction hd with
  | single h1 => exact h.depends_mono h1
  | tail _ h2 ih => exact ih.trans (h.depends_mono h2)

theorem edge_x (h : Redirect g g' x deps) : DependsDirectly g' x g.nodes.length := by
  obtain ⟨nx, i0, rest, hx, hin, hx', _⟩ := h.node
  exact ⟨_, hx', _, List.mem_cons_self .., rfl⟩

theorem edge_dep (h : Redirect g g' x deps) {d : Nat} (hd : d ∈ deps) :
    DependsDirectly g' g.nodes.length d := by
  obtain ⟨nx, i0, rest, hx, hin, hx', nc, hnc, hci, _⟩ := h.node
  exact ⟨nc, hnc, ⟨d, false, 0⟩, by simp [hci, hd], rfl⟩

theorem edge_inv (h : Redirect g g' x deps) {a b : Nat} (he : DependsDirectly g' a b) :
    (a = x ∧ b = g.nodes.length) ∨ (a = g.nodes.length ∧ (b ∈ deps ∨ DependsDirectly g x b)) ∨
    (a ≠ g.nodes.length ∧ DependsDirectly g a b) := by
  obtain ⟨nx, i0, rest, hx, hin, hx', nc, hnc, hci, _⟩ := h.node
  have hlt := h.x_lt
  obtain ⟨n, hn, i, hi, rfl⟩ := he
  by_cases h1 : a = x
  · subst h1
    rw [hx'] at hn; cases hn
    rcases List.mem_cons.1 hi with rfl | hi
    · exact .inl ⟨rfl, rfl⟩
    · exact .inr (.inr ⟨by omega, nx, hx, i, by simp [hin, hi], rfl⟩)
  · by_cases h2 : a = g.nodes.length
    · subst h2
      rw [hnc] at hn; cases hn
      rw [hci] at hi
      rcases List.mem_cons.1 hi with rfl | hi
      · exact .inr (.inl ⟨rfl, .inr ⟨nx, hx, i0, by simp [hin], rfl⟩⟩)
      · obtain ⟨d, hd, rfl⟩ := List.mem_map.1 hi
        exact .inr (.inl ⟨rfl, .inl hd⟩)
    · rw [h.other a h1 h2] at hn
      exact .inr (.inr ⟨h2, n, hn, i, hi, rfl⟩)

theorem acyclic (h : Redirect g g' x deps) (hc : Closed g) :
    Acyclic g' ↔ Acyclic g ∧ ∀ d ∈ deps, ¬ DependsOnRefl g d x := by
  have hlt := h.x_lt
  constructor
  · intro ha
    refine ⟨fun a had => ha a (h.dependsOn_mono had), fun d hd hdx => ?_⟩
    have h1 : DependsOn g' x d := .tail (.single h.edge_x) (h.edge_dep hd)
    rcases reflTransGen_iff_eq_or_transGen.1 hdx with heq | hdx
    · exact ha x (heq ▸ h1)
    · exact ha x (h1.trans (h.dependsOn_mono hdx))
  · rintro ⟨ha, hs⟩ a had
    -- nodes that do not reach `x` in the old graph
    let B : Nat → Prop := fun b => b ≠ g.nodes.length ∧ ¬ DependsOnRefl g b x
    have hBedge : ∀ {a b}, B a → DependsDirectly g' a b → DependsDirectly g a b ∧ B b := by
      intro a b hB he
      rcases h.edge_inv he with ⟨rfl, _⟩ | ⟨rfl, _⟩ | ⟨hne, he⟩
      · exact absurd .refl hB.2
      · exact absurd rfl hB.1
      · refine ⟨he, ?_, fun hr => hB.2 (.head he hr)⟩
        have := depends_lt_right hc he; omega
    have hBpath : ∀ {a b}, B a → DependsOn g' a b → DependsOn g a b ∧ B b := by
      intro a b hB hab
      induction hab with
      | single h1 => exact ⟨.single (hBedge hB h1).1, (hBedge hB h1).2⟩
      | tail _ h2 ih =>
        obtain ⟨h3, h4⟩ := hBedge ih.2 h2
        exact ⟨.tail ih.1 h3, h4⟩
    by_cases hBa : B a
    · exact ha a (hBpath hBa had).1
    · have key : ∀ {b}, DependsOn g' a b → ¬ B b → DependsOn g a b ∨ (b = g.nodes.length ∧ DependsOnRefl g a x) := by
        have hedge : ∀ {m b}, ¬ B b → DependsDirectly g' m b →
            (m = x ∧ b = g.nodes.length) ∨ (m ≠ g.nodes.length ∧ DependsDirectly g m b) := by
          intro m b hb he
          rcases h.edge_inv he with h1 | ⟨rfl, h1 | h1⟩ | h1
          · exact .inl h1
          · exact absurd ⟨by have := h.closedDeps b h1; omega, hs b h1⟩ hb
          · refine absurd ⟨by have := depends_lt_right hc h1; omega, fun hr => ?_⟩ hb
            rcases reflTransGen_iff_eq_or_transGen.1 hr with heq | hr
            · subst heq; exact ha _ (.single h1)
            · exact ha x (.head h1 hr)
          · exact .inr h1
        intro b hab
        induction hab with
        | single h1 =>
          intro hb
          rcases hedge hb h1 with ⟨rfl, rfl⟩ | ⟨_, h1⟩
          · exact .inr ⟨rfl, .refl⟩
          · exact .inl (.single h1)
        | @tail m b hm h2 ih =>
          intro hb
          have hm' : ¬ B m := fun hB => hb (hBedge hB h2).2
          rcases hedge hb h2 with ⟨rfl, rfl⟩ | ⟨hne, h2⟩
          · rcases ih hm' with h3 | ⟨h3, _⟩
            · exact .inr ⟨rfl, h3.to_reflTransGen⟩
            · omega
          · rcases ih hm' with h3 | ⟨h3, _⟩
            · exact .inl (.tail h3 h2)
            · exact absurd h3 hne
      rcases key had hBa with h1 | ⟨h1, h2⟩
      · exact ha a h1
      · rcases ReflTransGen.cases_head h2 with h3 | ⟨c, h3, _⟩
        · omega
        · have := depends_lt_left h3; omega

end Redirect

theorem exec_cases {O : Ops Op} {g g' : Graph Op} {c : Cmd Op} {t : Nat}
    (h : g.exec O c = .ok (g', t)) :
    Appends g g' ∨ ∃ x deps, c = .dependsOn x deps ∧ Redirect g g' x deps := by
  cases c with
  | dependsOn x deps => exact .inr ⟨x, deps, rfl, controlDependencies_redirect h⟩
  | build b op => exact .inl (exec_appends h (by simp))
  | var v => exact .inl (exec_appends h (by simp))
  | placeholder nm s => exact .inl (exec_appends h (by simp))

theorem exec_closed {O : Ops Op} {g g' : Graph Op} {c : Cmd Op} {t : Nat}
    (h : g.exec O c = .ok (g', t)) (hc : Closed g) : Closed g' := by
  rcases exec_cases h with h | ⟨_, _, _, h⟩
  · exact h.closed hc
  · exact h.closed hc

theorem execAll_cons {O : Ops Op} {g g' : Graph Op} {c : Cmd Op} {cs : List (Cmd Op)} {ts : List Nat} :
    g.execAll O (c :: cs) = .ok (g', ts) ↔
      ∃ g1 t ts', g.exec O c = .ok (g1, t) ∧ g1.execAll O cs = .ok (g', ts') ∧ ts = t :: ts' := by
  simp only [execAll, bind_ok]
  constructor
  · rintro ⟨⟨g1, t⟩, h1, ⟨g2, ts'⟩, h2, h3⟩
    cases h3
    exact ⟨g1, t, ts', h1, h2, rfl⟩
  · rintro ⟨g1, t, ts', h1, h2, rfl⟩
    exact ⟨⟨g1, t⟩, h1, ⟨g', ts'⟩, h2, rfl⟩

theorem execAll_nil {O : Ops Op} {g g' : Graph Op} {ts : List Nat} :
    g.execAll O [] = .ok (g', ts) ↔ g' = g ∧ ts = [] := by
  simp only [execAll]
  constructor
  · intro h; cases h; exact ⟨rfl, rfl⟩
  · rintro ⟨rfl, rfl⟩; rfl

theorem execAll_append {O : Ops Op} {cs ds : List (Cmd Op)} : ∀ {g g' : Graph Op} {ts : List Nat},
    g.execAll O (cs ++ ds) = .ok (g', ts) ↔
      ∃ g1 ts1 ts2, g.execAll O cs = .ok (g1, ts1) ∧ g1.execAll O ds = .ok (g', ts2) ∧ ts = ts1 ++ ts2 := by
  induction cs with
  | nil =>
    intro g g' ts
    simp only [List.nil_append, execAll_nil]
    constructor
    · intro h; exact ⟨g, [], ts, ⟨rfl, rfl⟩, h, rfl⟩
    · rintro ⟨g1, ts1, ts2, ⟨rfl, rfl⟩, h, rfl⟩; exact h
  | cons c cs ih =>
    intro g g' ts
    simp only [List.cons_append, execAll_cons, ih]
    constructor
    · rintro ⟨g1, t, ts', h1, ⟨g2, ts1, ts2, h2, h3, rfl⟩, rfl⟩
      exact ⟨g2, t :: ts1, ts2, ⟨g1, t, ts1, h1, h2, rfl⟩, h3, rfl⟩
    · rintro ⟨g2, ts1, ts2, ⟨g1, t, ts', h1, h2, rfl⟩, h3, rfl⟩
      exact ⟨g1, t, ts' ++ ts2, h1, ⟨g2, ts', ts2, h2, h3, rfl⟩, rfl⟩

theorem execAll_closed {O : Ops Op} {cs : List (Cmd Op)} : ∀ {g g' : Graph Op} {ts : List Nat},
    g.execAll O cs = .ok (g', ts) → Closed g → Closed g' := by
  induction cs with
  | nil => intro g g' ts h hc; rw [(execAll_nil.1 h).1]; exact hc
  | cons c cs ih =>
    intro g g' ts h hc
    obtain ⟨g1, t, ts', h1, h2, _⟩ := execAll_cons.1 h
    exact ih h2 (exec_closed h1 hc)

theorem closed_empty : Closed (empty : Graph Op) := by
  intro id n h; simp [empty] at h

theorem acyclic_empty : Acyclic (empty : Graph Op) := by
  intro a h
  obtain ⟨b, ⟨n, h, _⟩, _⟩ := TransGen.head'_iff.1 h
  simp [empty] at h

theorem sameExceptFirstInput_trans {a b c : Node Op} (h1 : SameExceptFirstInput a b)
    (h2 : SameExceptFirstInput b c) : SameExceptFirstInput a c := by
  obtain ⟨i0, rest, j, h, rfl⟩ := h1
  obtain ⟨i1, rest1, j1, h', rfl⟩ := h2
  cases h'
  exact ⟨i0, rest, j1, h, rfl⟩

theorem exec_frame {O : Ops Op} {g g' : Graph Op} {c : Cmd Op} {t : Nat}
    (h : g.exec O c = .ok (g', t)) {id : Nat} {n : Node Op} (hn : g.nodes[id]? = some n) :
    ∃ n', g'.nodes[id]? = some n' ∧
      (n' = n ∨ (∃ deps, c = .dependsOn id deps) ∧ SameExceptFirstInput n n') := by
  rcases exec_cases h with h | ⟨x, deps, rfl, h'⟩
  · exact ⟨n, h.getElem? hn, .inl rfl⟩
  · have hlt := (List.getElem?_eq_some_iff.1 hn).1
    by_cases hx : id = x
    · subst hx
      obtain ⟨nx, i0, rest, hx, hin, hx', _⟩ := h'.node
      rw [hx] at hn; cases hn
      exact ⟨_, hx', .inr ⟨⟨deps, rfl⟩, i0, rest, _, hin, rfl⟩⟩
    · exact ⟨n, by rw [h'.other id hx (by omega), hn], .inl rfl⟩

theorem exec_size {O : Ops Op} {g g' : Graph Op} {c : Cmd Op} {t : Nat}
    (h : g.exec O c = .ok (g', t)) : g.nodes.length ≤ g'.nodes.length := by
  rcases exec_cases h with h | ⟨x, deps, rfl, h'⟩
  · exact h.prefix.length_le
  · have := h'.len; omega

theorem dependsOnTargets_cons {c : Cmd Op} {cs : List (Cmd Op)} {id : Nat} :
    id ∈ dependsOnTargets (c :: cs) ↔ (∃ deps, c = .dependsOn id deps) ∨ id ∈ dependsOnTargets cs := by
  cases c <;> simp [dependsOnTargets, eq_comm]

theorem execAll_frame {O : Ops Op} {cs : List (Cmd Op)} : ∀ {g g' : Graph Op} {ts : List Nat},
    g.execAll O cs = .ok (g', ts) → ∀ {id : Nat} {n : Node Op}, g.nodes[id]? = some n →
    ∃ n', g'.nodes[id]? = some n' ∧ (n' = n ∨ id ∈ dependsOnTargets cs ∧ SameExceptFirstInput n n') := by
  induction cs with
  | nil => intro g g' ts h id n hn; rw [(execAll_nil.1 h).1]; exact ⟨n, hn, .inl rfl⟩
  | cons c cs ih =>
    intro g g' ts h id n hn
    obtain ⟨g1, t, ts', h1, h2, _⟩ := execAll_cons.1 h
    obtain ⟨n1, hn1, e1⟩ := exec_frame h1 hn
    obtain ⟨n2, hn2, e2⟩ := ih h2 hn1
    refine ⟨n2, hn2, ?_⟩
    rw [dependsOnTargets_cons]
    rcases e1 with rfl | ⟨e1, s1⟩ <;> rcases e2 with rfl | ⟨e2, s2⟩
    · exact .inl rfl
    · exact .inr ⟨.inr e2, s2⟩
    · exact .inr ⟨.inl e1, s1⟩
    · exact .inr ⟨.inl e1, sameExceptFirstInput_trans s1 s2⟩

theorem execAll_size {O : Ops Op} {cs : List (Cmd Op)} : ∀ {g g' : Graph Op} {ts : List Nat},
    g.execAll O cs = .ok (g', ts) → g.nodes.length ≤ g'.nodes.length := by
  induction cs with
  | nil => intro g g' ts h; rw [(execAll_nil.1 h).1]; exact Nat.le_refl _
  | cons c cs ih =>
    intro g g' ts h
    obtain ⟨g1, t, ts', h1, h2, _⟩ := execAll_cons.1 h
    exact Nat.le_trans (exec_size h1) (ih h2)

/-- A declared shape is recorded and has only positive dimensions or -1. -/
def KnownOk (k : Option (List Int)) : Prop := ∃ s, k = some s ∧ ∀ d ∈ s, d = -1 ∨ 0 < d

theorem knownShapeNew_ok {s s' : List Int} : knownShapeNew s = .ok s' ↔ s' = s ∧ ∀ d ∈ s, d = -1 ∨ 0 < d := by
  unfold knownShapeNew
  split
  · rename_i h
    simp only [List.all_eq_true, Bool.or_eq_true, beq_iff_eq, Bool.and_eq_true, Bool.not_eq_true', decide_eq_false_iff_not, bne_iff_ne] at h
    constructor
    · intro h'; cases h'
      refine ⟨rfl, fun d hd => ?_⟩
      have := h d hd; omega
    · rintro ⟨rfl, _⟩; rfl
  · rename_i h
    constructor
    · intro h'; cases h'
    · rintro ⟨rfl, h'⟩
      exfalso; apply h
      simp only [List.all_eq_true, Bool.or_eq_true, beq_iff_eq, Bool.and_eq_true, Bool.not_eq_true', decide_eq_false_iff_not, bne_iff_ne]
      intro d hd
      have := h' d hd; omega

/-- Structural invariant of every graph made by builder calls. -/
structure WF (g : Graph Op) : Prop where
  closed : Closed g
  leafSource : ∀ (id : Nat) (n : Node Op), g.nodes[id]? = some n → n.isLeafInput = true → n.incoming = []
  notBoth : ∀ (id : Nat) (n : Node Op), g.nodes[id]? = some n → n.placeholderName = none ∨ n.variableId = none
  phKnown : ∀ (id : Nat) (n : Node Op), g.nodes[id]? = some n → n.placeholderName.isSome → KnownOk n.knownShape
  cache : ∀ v t, g.var2node v = some t ↔ ∃ n : Node Op, g.nodes[t]? = some n ∧ n.variableId = some v

theorem wf_empty : WF (empty : Graph Op) := by
  constructor
  · exact closed_empty
  all_goals simp [empty]

theorem WF.snoc {g g' : Graph Op} (h : WF g) {n : Node Op} (hn : g'.nodes = g.nodes ++ [n])
    (hcl : ∀ i ∈ n.incoming, i.id < g.nodes.length)
    (h1 : n.isLeafInput = true → n.incoming = [])
    (h2 : n.placeholderName = none ∨ n.variableId = none)
    (h3 : n.placeholderName.isSome → KnownOk n.knownShape)
    (h4 : g'.var2node = match n.variableId with
      | none => g.var2node
      | some v => fun w => if w = v then some g.nodes.length else g.var2node w)
    (h5 : ∀ v, n.variableId = some v → g.var2node v = none) : WF g' := by
  constructor
  · intro id m hm i hi
    rw [hn, getElem?_snoc] at hm
    rw [hn, List.length_append]
    rcases hm with hm | ⟨_, rfl⟩
    · have := h.closed _ _ hm i hi; omega
    · have := hcl i hi; omega
  · intro id m hm
    rw [hn, getElem?_snoc] at hm
    rcases hm with hm | ⟨_, rfl⟩
    · exact h.leafSource _ _ hm
    · exact h1
  · intro id m hm
    rw [hn, getElem?_snoc] at hm
    rcases hm with hm | ⟨_, rfl⟩
    · exact h.notBoth _ _ hm
    · exact h2
  · intro id m hm
    rw [hn, getElem?_snoc] at hm
    rcases hm with hm | ⟨_, rfl⟩
    · exact h.phKnown _ _ hm
    · exact h3
  · intro v t
    rw [hn]
    cases hv : n.variableId with
    | none =>
      rw [hv] at h4; simp only at h4
      rw [h4, h.cache]
      constructor
      · rintro ⟨m, hm, hmv⟩; exact ⟨m, getElem?_snoc.2 (.inl hm), hmv⟩
      · rintro ⟨m, hm, hmv⟩
        rcases getElem?_snoc.1 hm with hm | ⟨_, rfl⟩
        · exact ⟨m, hm, hmv⟩
        · simp [hv] at hmv
    | some v0 =>
      rw [hv] at h4; simp only at h4
      have h5' := h5 v0 hv
      rw [h4]; simp only
      split
      · rename_i e; subst e
        constructor
        · intro e; cases e; exact ⟨n, getElem?_snoc.2 (.inr ⟨rfl, rfl⟩), hv⟩
        · rintro ⟨m, hm, hmv⟩
          rcases getElem?_snoc.1 hm with hm | ⟨rfl, rfl⟩
          · have := (h.cache v t).2 ⟨m, hm, hmv⟩; simp [h5'] at this
          · rfl
      · rename_i e
        rw [h.cache]
        constructor
        · rintro ⟨m, hm, hmv⟩; exact ⟨m, getElem?_snoc.2 (.inl hm), hmv⟩
        · rintro ⟨m, hm, hmv⟩
          rcases getElem?_snoc.1 hm with hm | ⟨_, rfl⟩
          · exact ⟨m, hm, hmv⟩
          · simp [hv] at hmv; exact absurd hmv.symm e

theorem WF.build {g g' : Graph Op} (h : WF g) {b : Builder} {op : Op} {t : Nat}
    (hb : g.build b op = .ok (g', t)) (h1 : b.variableId = none)
    (h2 : b.placeholderName.isSome → b.inNodes = [] ∧ KnownOk b.knownShape) : WF g' := by
  have hcl := build_inputs_lt hb
  obtain ⟨r, hr, hl, _, e1, e2⟩ := build_ok hb
  refine h.snoc e2 hcl ?_ (.inr h1) ?_ ?_ ?_
  · intro hleaf
    simp only [Node.isLeafInput, Node.isVariable, Builder.toNode, h1] at hleaf ⊢
    exact (h2 (by simpa using hleaf)).1
  · intro hp; exact (h2 hp).2
  · simp [Builder.toNode, h1, e1]
  · simp [Builder.toNode, h1]

theorem WF.exec {O : Ops Op} {g g' : Graph Op} (h : WF g) {c : Cmd Op} {t : Nat}
    (hx : g.exec O c = .ok (g', t)) : WF g' := by
  cases c with
  | build b op => exact h.build hx rfl (by simp)
  | var v =>
    rcases variableById_ok hx with ⟨rfl, _⟩ | ⟨hnone, e1, e2, e3, _⟩
    · exact h
    · refine h.snoc e2 (by simp [Builder.toNode]) (by simp [Builder.toNode]) (by simp [Builder.toNode])
        (by simp [Builder.toNode]) ?_ ?_
      · simp [Builder.toNode, e3, e1]
      · simp [Builder.toNode, hnone]
  | placeholder nm s =>
    obtain ⟨g1, hint, _, _, hks, hb, hc⟩ := placeholder_ok hx
    have h1 : WF g1 := by
      rcases hc with ⟨rfl, _⟩ | ⟨ga, sh, c, ha, hb', _⟩
      · exact h
      · exact (h.build ha rfl (by simp)).build hb' rfl (by simp)
    exact h1.build hb rfl (fun _ => ⟨rfl, s, rfl, (knownShapeNew_ok.1 hks).2⟩)
  | dependsOn x deps =>
    have hr := controlDependencies_redirect hx
    obtain ⟨_, _, _, _, _, _, _, _, _, hv, _⟩ := controlDependencies_ok hx
    obtain ⟨nx, i0, rest, hx0, hin, hx', nc, hnc, hci, hcv, hcp, _⟩ := hr.node
    have hlt := hr.x_lt
    have hnl : nx.isLeafInput = false := by
      cases hl : nx.isLeafInput with
      | false => rfl
      | true => have := h.leafSource _ _ hx0 hl; simp [hin] at this
    have hcases : ∀ (id : Nat) (m : Node Op), g'.nodes[id]? = some m →
        (g.nodes[id]? = some m) ∨ (id = x ∧ m = { nx with incoming := { i0 with id := g.nodes.length } :: rest }) ∨
        (id = g.nodes.length ∧ m = nc) := by
      intro id m hm
      by_cases h1 : id = x
      · subst h1; rw [hx'] at hm; cases hm; exact .inr (.inl ⟨rfl, rfl⟩)
      · by_cases h2 : id = g.nodes.length
        · subst h2; rw [hnc] at hm; cases hm; exact .inr (.inr ⟨rfl, rfl⟩)
        · rw [hr.other id h1 h2] at hm; exact .inl hm
    have hnv : nx.placeholderName = none ∧ nx.variableId = none := by
      simpa [Node.isLeafInput, Node.isVariable] using hnl
    constructor
    · exact hr.closed h.closed
    · intro id m hm hl
      rcases hcases id m hm with hm | ⟨_, rfl⟩ | ⟨_, rfl⟩
      · exact h.leafSource _ _ hm hl
      · simp [Node.isLeafInput, Node.isVariable, hnv] at hl
      · simp [Node.isLeafInput, Node.isVariable, hcv, hcp] at hl
    · intro id m hm
      rcases hcases id m hm with hm | ⟨_, rfl⟩ | ⟨_, rfl⟩
      · exact h.notBoth _ _ hm
      · exact .inl hnv.1
      · exact .inl hcp
    · intro id m hm hp
      rcases hcases id m hm with hm | ⟨_, rfl⟩ | ⟨_, rfl⟩
      · exact h.phKnown _ _ hm hp
      · simp [hnv] at hp
      · simp [hcp] at hp
    · intro v t
      rw [hv, h.cache]
      constructor
      · rintro ⟨m, hm, hmv⟩
        have h1 : t ≠ x := by
          rintro rfl; rw [hx0] at hm; cases hm; simp [hnv] at hmv
        have h2 := (List.getElem?_eq_some_iff.1 hm).1
        exact ⟨m, by rw [hr.other t h1 (by omega), hm], hmv⟩
      · rintro ⟨m, hm, hmv⟩
        rcases hcases t m hm with hm | ⟨_, rfl⟩ | ⟨_, rfl⟩
        · exact ⟨m, hm, hmv⟩
        · simp [hnv] at hmv
        · simp [hcv] at hmv

theorem WF.execAll {O : Ops Op} {cs : List (Cmd Op)} : ∀ {g g' : Graph Op} {ts : List Nat},
    WF g → g.execAll O cs = .ok (g', ts) → WF g' := by
  induction cs with
  | nil => intro g g' ts hw h; rw [(execAll_nil.1 h).1]; exact hw
  | cons c cs ih =>
    intro g g' ts hw h
    obtain ⟨g1, t, ts', h1, h2, _⟩ := execAll_cons.1 h
    exact ih (hw.exec h1) h2

end Graph
end Verif
