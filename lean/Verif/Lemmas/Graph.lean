import Verif.Spec.Graph

namespace Verif
open Spec
variable {Op : Type}
namespace Graph

theorem access_ok {g : Graph Op} {id : Nat} {n : Node Op} :
    g.access id = .ok n ↔ g.nodes[id]? = some n := by
  unfold access; cases g.nodes[id]? <;> simp

theorem install_ok {g : Graph Op} {n : Node Op} {g' : Graph Op} {id : Nat} :
    g.install n = .ok (g', id) ↔
      g.nodes.length ≤ numNodesCritical ∧ g' = { g with nodes := g.nodes ++ [n] } ∧ id = g.nodes.length := by
  unfold install size
  split
  · simp; omega
  · simp; constructor
    · rintro ⟨rfl, rfl⟩; exact ⟨by omega, rfl, rfl⟩
    · rintro ⟨_, rfl, rfl⟩; exact ⟨rfl, rfl⟩

theorem bind_ok {ε α β : Type} {x : Except ε α} {f : α → Except ε β} {b : β} :
    (x >>= f) = .ok b ↔ ∃ a, x = .ok a ∧ f a = .ok b := by
  cases x <;> simp [bind, Except.bind]

theorem buildRank_ok {g : Graph Op} : ∀ {is : List Incoming} {r : Nat}, g.buildRank is = .ok r →
    ∀ i ∈ is, ∃ n, g.nodes[i.id]? = some n ∧ n.topoRank < r
  | [], _, _ => by simp
  | i :: is, r, h => by
    simp only [buildRank, bind_ok] at h
    obtain ⟨n, hn, r', hr', h⟩ := h
    cases h
    intro j hj
    rcases List.mem_cons.1 hj with rfl | hj
    · exact ⟨n, access_ok.1 hn, by omega⟩
    · obtain ⟨m, hm, hlt⟩ := buildRank_ok hr' j hj
      exact ⟨m, hm, by omega⟩

/-- the rank is one more than the maximal input rank -/
theorem buildRank_exact {g : Graph Op} : ∀ {is : List Incoming} {r : Nat}, g.buildRank is = .ok r →
    r = 0 ∧ is = [] ∨ ∃ i ∈ is, ∃ n, g.nodes[i.id]? = some n ∧ r = n.topoRank + 1
  | [], r, h => by simp [buildRank] at h; simp [h]
  | i :: is, r, h => by
    simp only [buildRank, bind_ok] at h
    obtain ⟨n, hn, r', hr', h⟩ := h
    cases h
    right
    by_cases hle : r' ≤ n.topoRank + 1
    · exact ⟨i, by simp, n, access_ok.1 hn, by omega⟩
    · rcases buildRank_exact hr' with ⟨h0, _⟩ | ⟨j, hj, m, hm, h⟩
      · omega
      · exact ⟨j, by simp [hj], m, hm, by omega⟩

theorem build_ok {g : Graph Op} {b : Builder} {op : Op} {g' : Graph Op} {id : Nat}
    (h : g.build b op = .ok (g', id)) :
    ∃ r, g.buildRank b.inNodes = .ok r ∧ g.nodes.length ≤ numNodesCritical ∧ id = g.nodes.length ∧
      g'.var2node = g.var2node ∧
      g'.nodes = g.nodes ++ [b.toNode op r] := by
  simp only [build, bind_ok, install_ok] at h
  obtain ⟨r, hr, hl, rfl, rfl⟩ := h
  exact ⟨r, hr, hl, rfl, rfl, rfl⟩

theorem build_inputs_lt {g : Graph Op} {b : Builder} {op : Op} {g' : Graph Op} {id : Nat}
    (h : g.build b op = .ok (g', id)) : ∀ i ∈ b.inNodes, i.id < g.nodes.length := by
  obtain ⟨r, hr, _⟩ := build_ok h
  intro i hi
  obtain ⟨n, hn, _⟩ := buildRank_ok hr i hi
  exact (List.getElem?_eq_some_iff.1 hn).1

end Graph
end Verif

namespace Verif
open Spec Relation
variable {Op : Type}
namespace Graph

/-- One `build`: a node is appended whose inputs exist and whose rank is above its inputs. -/
def Snoc (g g' : Graph Op) : Prop :=
  ∃ n : Node Op, g'.nodes = g.nodes ++ [n] ∧
    (∀ i ∈ n.incoming, ∃ m, g.nodes[i.id]? = some m ∧ m.topoRank < n.topoRank) ∧
    g.nodes.length ≤ numNodesCritical

/-- Finitely many `build`s. -/
def Appends : Graph Op → Graph Op → Prop := ReflTransGen Snoc

theorem build_snoc {g g' : Graph Op} {b : Builder} {op : Op} {id : Nat}
    (h : g.build b op = .ok (g', id)) : Snoc g g' := by
  obtain ⟨r, hr, hl, _, _, hn⟩ := build_ok h
  exact ⟨_, hn, buildRank_ok hr, hl⟩

theorem variableById_ok {g g' : Graph Op} {v : Op} {vid id : Nat}
    (h : g.variableById v vid = .ok (g', id)) :
    (g' = g ∧ g.var2node vid = some id) ∨
    (g.var2node vid = none ∧ id = g.nodes.length ∧
      g'.nodes = g.nodes ++ [({ variableId := some vid } : Builder).toNode v 0] ∧
      g'.var2node = (fun w => if w = vid then some id else g.var2node w) ∧
      g.nodes.length ≤ numNodesCritical) := by
  unfold variableById at h
  split at h
  · rename_i t ht
    cases h; exact .inl ⟨rfl, ht⟩
  · rename_i hnone
    simp only [bind_ok] at h
    obtain ⟨⟨g1, t1⟩, hb, h⟩ := h
    cases h
    obtain ⟨r, hr, hl, h1, h2, h3⟩ := build_ok hb
    simp [buildRank] at hr
    subst hr
    exact .inr ⟨hnone, h1, h3, by simp [h2], hl⟩

theorem variableById_appends {g g' : Graph Op} {v : Op} {vid id : Nat}
    (h : g.variableById v vid = .ok (g', id)) : Appends g g' := by
  rcases variableById_ok h with ⟨rfl, _⟩ | ⟨_, _, h, _, hl⟩
  · exact .refl
  · exact .single ⟨_, h, by simp [Builder.toNode], hl⟩

theorem placeholder_ok {g g' : Graph Op} {cop : List Int → Op} {pop : Op} {nm : String} {s : List Int} {id : Nat}
    (h : g.placeholder cop pop nm s = .ok (g', id)) :
    ∃ g1 hint, Appends g g1 ∧ g1.var2node = g.var2node ∧ knownShapeNew s = .ok s ∧
      g1.build { placeholderName := some nm, shape := hint, knownShape := some s } pop = .ok (g', id) ∧
      ((g1 = g ∧ hint = none) ∨
        ∃ ga sh c, g.build {} (cop [(s.length : Int)]) = .ok (ga, sh) ∧
          ga.build { shape := some sh } (cop s) = .ok (g1, c) ∧ hint = some c) := by
  simp only [placeholder, bind_ok] at h
  obtain ⟨⟨g1, hint⟩, h1, ks, hks, h2⟩ := h
  have hk : ks = s := by
    unfold knownShapeNew at hks; split at hks <;> simp_all
  subst hk
  unfold placeholderHint at h1
  split at h1
  · simp only [bind_ok] at h1
    obtain ⟨⟨ga, sh⟩, ha, ⟨gb, c⟩, hb, hp⟩ := h1
    cases hp
    obtain ⟨_, _, _, _, e1, _⟩ := build_ok ha
    obtain ⟨_, _, _, _, e2, _⟩ := build_ok hb
    exact ⟨_, _, .tail (.single (build_snoc ha)) (build_snoc hb), by rw [e2, e1], hks, h2,
      .inr ⟨ga, sh, c, ha, hb, rfl⟩⟩
  · cases h1
    exact ⟨_, _, .refl, rfl, hks, h2, .inl ⟨rfl, rfl⟩⟩

theorem controlDependencies_ok {g g' : Graph Op} {cop : Op} {x t : Nat} {deps : List Nat}
    (h : g.controlDependencies cop x deps = .ok (g', t)) :
    t = x ∧ ∃ nx i0 rest r, g.nodes[x]? = some nx ∧ nx.incoming = i0 :: rest ∧
      g.buildRank ({ id := i0.id } :: deps.map (fun d => ({ id := d } : Incoming))) = .ok r ∧
      g.nodes.length ≤ numNodesCritical ∧
      g'.var2node = g.var2node ∧
      g'.nodes = (g.nodes ++ [({ inNodes := { id := i0.id } :: deps.map (fun d => ({ id := d } : Incoming)) } : Builder).toNode cop r]).set x
        { nx with incoming := { i0 with id := g.nodes.length } :: rest } := by
  simp only [controlDependencies, bind_ok] at h
  obtain ⟨nx, hnx, h⟩ := h
  split at h
  · cases h
  · rename_i i0 rest hin
    simp only [bind_ok] at h
    obtain ⟨⟨g1, c⟩, hb, h⟩ := h
    cases h
    obtain ⟨r, hr, hl, h1, h2, h3⟩ := build_ok hb
    refine ⟨rfl, nx, i0, rest, r, access_ok.1 hnx, hin, hr, hl, ?_, ?_⟩
    · simp [setNode, h2]
    · simp [setNode, h3, h1]

theorem exec_appends {O : Ops Op} {g g' : Graph Op} {c : Cmd Op} {t : Nat}
    (h : g.exec O c = .ok (g', t)) (hc : ∀ x deps, c ≠ .dependsOn x deps) : Appends g g' := by
  cases c with
  | build b op => exact .single (build_snoc h)
  | var v => exact variableById_appends h
  | placeholder nm s =>
    obtain ⟨g1, _, ha, _, _, hb, _⟩ := placeholder_ok h
    exact .tail ha (build_snoc hb)
  | dependsOn x deps => exact absurd rfl (hc x deps)

theorem Appends.prefix {g g' : Graph Op} (h : Appends g g') : g.nodes <+: g'.nodes := by
  induction h with
  | refl => exact List.prefix_rfl
  | tail _ hs ih =>
    obtain ⟨n, hn, _⟩ := hs
    exact ih.trans (hn ▸ List.prefix_append _ _)

theorem Appends.getElem? {g g' : Graph Op} (h : Appends g g') {id : Nat} {n : Node Op}
    (hn : g.nodes[id]? = some n) : g'.nodes[id]? = some n := by
  obtain ⟨l, hl⟩ := h.prefix
  have := (List.getElem?_eq_some_iff.1 hn).1
  rw [← hl, List.getElem?_append_left this, hn]

/-- Inputs of every node exist. -/
def Closed (g : Graph Op) : Prop :=
  ∀ (id : Nat) (n : Node Op), g.nodes[id]? = some n → ∀ i ∈ n.incoming, i.id < g.nodes.length

theorem Snoc.closed {g g' : Graph Op} (h : Snoc g g') (hc : Closed g) : Closed g' := by
  obtain ⟨n, hn, hi, _⟩ := h
  intro id m hm i him
  rw [hn, List.getElem?_append] at hm
  rw [hn, List.length_append]
  split at hm
  · exact Nat.lt_of_lt_of_le (hc _ _ hm i him) (by simp)
  · rename_i hlt
    have : m = n := by
      cases h : id - g.nodes.length with
      | zero => simp [h] at hm; exact hm.symm
      | succ k => simp [h] at hm
    subst this
    obtain ⟨k, hk, _⟩ := hi i him
    have := (List.getElem?_eq_some_iff.1 hk).1
    omega

theorem Appends.closed {g g' : Graph Op} (h : Appends g g') (hc : Closed g) : Closed g' := by
  induction h with
  | refl => exact hc
  | tail _ hs ih => exact hs.closed ih

theorem getElem?_snoc {α : Type} {l : List α} {a m : α} {id : Nat} :
    (l ++ [a])[id]? = some m ↔ l[id]? = some m ∨ (id = l.length ∧ m = a) := by
  rw [List.getElem?_append]
  split
  · rename_i h
    constructor
    · exact .inl
    · rintro (h' | ⟨h', _⟩)
      · exact h'
      · omega
  · rename_i h
    constructor
    · intro h'
      cases hd : id - l.length with
      | zero => simp [hd] at h'; exact .inr ⟨by omega, h'.symm⟩
      | succ k => simp [hd] at h'
    · rintro (h' | ⟨h', rfl⟩)
      · have := (List.getElem?_eq_some_iff.1 h').1; omega
      · simp [h']

theorem depends_lt_left {g : Graph Op} {a b : Nat} (h : DependsDirectly g a b) : a < g.nodes.length := by
  obtain ⟨n, hn, _⟩ := h
  exact (List.getElem?_eq_some_iff.1 hn).1

theorem depends_lt_right {g : Graph Op} (hc : Closed g) {a b : Nat} (h : DependsDirectly g a b) :
    b < g.nodes.length := by
  obtain ⟨n, hn, i, hi, rfl⟩ := h
  exact hc _ _ hn i hi

theorem Snoc.depends {g g' : Graph Op} (h : Snoc g g') {a b : Nat} (hd : DependsDirectly g a b) :
    DependsDirectly g' a b := by
  obtain ⟨n, hn, i, hi, rfl⟩ := hd
  exact ⟨n, Appends.getElem? (.single h) hn, i, hi, rfl⟩

theorem Snoc.acyclic {g g' : Graph Op} (h : Snoc g g') (hc : Closed g) : Acyclic g' ↔ Acyclic g := by
  constructor
  · intro ha a had
    exact ha a (TransGen.mono (fun _ _ => h.depends) _ _ had)
  · intro ha a had
    have key : ∀ {b}, DependsDirectly g' a b → b < g.nodes.length := by
      intro b hb
      obtain ⟨n, hn, hi, _⟩ := h
      obtain ⟨m, hm, i, him, rfl⟩ := hb
      rw [hn, getElem?_snoc] at hm
      rcases hm with hm | ⟨_, rfl⟩
      · exact hc _ _ hm i him
      · obtain ⟨k, hk, _⟩ := hi i him
        exact (List.getElem?_eq_some_iff.1 hk).1
    have edge : ∀ {a b}, a < g.nodes.length → DependsDirectly g' a b →
        DependsDirectly g a b := by
      intro a b hlt hb
      obtain ⟨n, hn, _⟩ := h
      obtain ⟨m, hm, i, him, rfl⟩ := hb
      rw [hn, getElem?_snoc] at hm
      rcases hm with hm | ⟨h', rfl⟩
      · exact ⟨m, hm, i, him, rfl⟩
      · omega
    have path : ∀ {a b}, DependsOn g' a b → a < g.nodes.length → DependsOn g a b := by
      intro a b hab
      induction hab using TransGen.head_induction_on with
      | single h1 => intro hlt; exact .single (edge hlt h1)
      | head h1 _ ih => intro hlt; exact .head (edge hlt h1) (ih (depends_lt_right hc (edge hlt h1)))
    have lt_of : ∀ {a b}, DependsOn g' a b → b < g.nodes.length := by
      intro a b hab
      obtain ⟨c, _, hcb⟩ := TransGen.tail'_iff.1 hab
      obtain ⟨n, hn, hi, _⟩ := h
      obtain ⟨m, hm, i, him, rfl⟩ := hcb
      rw [hn, getElem?_snoc] at hm
      rcases hm with hm | ⟨_, rfl⟩
      · exact hc _ _ hm i him
      · obtain ⟨k, hk, _⟩ := hi i him
        exact (List.getElem?_eq_some_iff.1 hk).1
    exact ha a (path had (lt_of had))

theorem Appends.acyclic {g g' : Graph Op} (h : Appends g g') (hc : Closed g) : Acyclic g' ↔ Acyclic g := by
  induction h with
  | refl => rfl
  | tail hab hs ih => exact (hs.acyclic (Appends.closed hab hc)).trans ih

end Graph
end Verif
