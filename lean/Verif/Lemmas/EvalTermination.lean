import Verif.Lemmas.EvalTraversal
import Mathlib.Algebra.BigOperators.Group.Finset.Basic
import Mathlib.Algebra.Order.BigOperators.Group.Finset

/-! Linear bound on the number of iterations of the evaluation loop on acyclic graphs. -/

namespace Verif
open Spec Relation
variable {Op V E W : Type}

namespace Eval
open Graph

theorem loop_mono {S : Sem Op V E W} {g : Graph Op} {feeds : List (Feed V)} :
    ∀ {fuel : Nat} {st : EvalState V E W} {r}, loop S g feeds fuel st = some r → ∀ k, loop S g feeds (fuel + k) st = some r := by
  intro fuel
  induction fuel with
  | zero =>
    intro st r h k
    unfold loop at h ⊢
    split at h
    · exact h
    · cases h
  | succ fuel ih =>
    intro st r h k
    rw [Nat.succ_add]
    unfold loop at h ⊢
    split at h
    · exact h
    · rename_i e rest hs
      simp only at h ⊢
      split at h
      · exact h
      · exact ih h k

theorem loop_det {S : Sem Op V E W} {g : Graph Op} {feeds : List (Feed V)} {f1 f2 : Nat} {st : EvalState V E W} {r1 r2}
    (h1 : loop S g feeds f1 st = some r1) (h2 : loop S g feeds f2 st = some r2) : r1 = r2 := by
  have a := loop_mono h1 f2
  have b := loop_mono h2 f1
  rw [Nat.add_comm] at b
  rw [a] at b; exact Option.some.inj b

/-- Number of inputs of the node `id`. -/
def deg (g : Graph Op) (id : Nat) : Nat :=
  match g.nodes[id]? with
  | some n => n.incoming.length
  | none => 0

theorem childrenToPush_length {g : Graph Op} {s : Storage V E} : ∀ {is : List Incoming} {cs : List Nat},
    childrenToPush g s is = .ok cs → cs.length ≤ is.length
  | [], cs, h => by simp [childrenToPush] at h; simp [h]
  | i :: is, cs, h => by
    simp only [childrenToPush, bind_ok] at h
    obtain ⟨n, hn, rest, hr, h⟩ := h
    have := childrenToPush_length hr
    cases h
    split <;> simp <;> omega

/-- `id` has been expanded: it is computed or waits on the stack for its inputs. -/
def Expanded (st : EvalState V E W) (id : Nat) : Prop := (st.storage id).isSome = true ∨ (id, true) ∈ st.stack

open Classical in
/-- number of inputs of nodes that are not expanded yet -/
noncomputable def unexp (g : Graph Op) (st : EvalState V E W) : Nat :=
  ∑ id ∈ Finset.range g.nodes.length, if Expanded st id then 0 else deg g id

/-- weight of the stack: 2 for each entry to expand, 1 for each entry to visit -/
def stackWeight (l : List (Nat × Bool)) : Nat := (l.map (fun e => if e.2 then 1 else 2)).sum

noncomputable def potential (g : Graph Op) (st : EvalState V E W) : Nat := stackWeight st.stack + 2 * unexp g st

/-- Entries above a `true` entry are tensors it depends on. -/
def AboveDeps (g : Graph Op) (l : List (Nat × Bool)) : Prop :=
  l.Pairwise (fun e f => f.2 = true → DependsOn g f.1 e.1)

theorem unexp_mono {g : Graph Op} {st st' : EvalState V E W} (h : ∀ id, Expanded st id → Expanded st' id ∨ deg g id = 0) :
    unexp g st' ≤ unexp g st := by
  classical
  unfold unexp
  apply Finset.sum_le_sum
  intro id _
  by_cases h1 : Expanded st id
  · rcases h id h1 with h2 | h2 <;> simp [h2]
  · simp only [h1, if_false]; split <;> omega

theorem unexp_drop {g : Graph Op} {st st' : EvalState V E W} {id : Nat} (hid : id < g.nodes.length)
    (h : ∀ id, Expanded st id → Expanded st' id) (hn : ¬ Expanded st id) (hy : Expanded st' id) :
    unexp g st' + deg g id ≤ unexp g st := by
  classical
  unfold unexp
  rw [← Finset.add_sum_erase _ _ (Finset.mem_range.2 hid), ← Finset.add_sum_erase (Finset.range _) (fun k => if Expanded st k then 0 else deg g k) (Finset.mem_range.2 hid)]
  simp only [hn, hy, if_true, if_false]
  have : ∑ x ∈ (Finset.range g.nodes.length).erase id, (if Expanded st' x then 0 else deg g x) ≤
      ∑ x ∈ (Finset.range g.nodes.length).erase id, (if Expanded st x then 0 else deg g x) := by
    apply Finset.sum_le_sum
    intro k _
    by_cases h1 : Expanded st k
    · simp [h k h1]
    · simp only [h1, if_false]; split <;> omega
  omega

theorem stackWeight_append (a b : List (Nat × Bool)) : stackWeight (a ++ b) = stackWeight a + stackWeight b := by
  simp [stackWeight]

theorem stackWeight_falses (cs : List Nat) : stackWeight ((cs.map (fun c => (c, false))).reverse) = 2 * cs.length := by
  have : ∀ l : List Nat, stackWeight (l.map (fun c => (c, false))) = 2 * l.length := by
    intro l
    induction l with
    | nil => rfl
    | cons a l ih => simp [stackWeight] at ih ⊢; omega
  rw [← List.map_reverse, this]; simp

theorem aboveDeps_step {S : Sem Op V E W} {g : Graph Op} {feeds : List (Feed V)} 
    {st st' : EvalState V E W} {e : Nat × Bool} {rest : List (Nat × Bool)} (hstk : st.stack = e :: rest)
    (ha : AboveDeps g st.stack) (h : step S g feeds e { st with stack := rest } = .ok st') : AboveDeps g st'.stack := by
  obtain ⟨id, b⟩ := e
  simp only [step, bind_ok] at h
  obtain ⟨n, hn, h⟩ := h
  have hn := access_ok.1 hn
  rw [hstk] at ha
  have ha' := List.pairwise_cons.1 ha
  split at h
  · rcases visit_ok h with ⟨_, rfl⟩ | ⟨_, hs, _⟩
    · exact ha'.2
    · rw [hs]; exact ha'.2
  · simp only [bind_ok] at h
    obtain ⟨cs, hcs, h⟩ := h
    cases h
    have hcs := childrenToPush_ok hcs
    have hdep : ∀ c ∈ cs, DependsOn g id c := by
      intro c hc
      obtain ⟨i, hi, rfl, _⟩ := (hcs c).1 hc
      exact .single ⟨n, hn, i, hi, rfl⟩
    unfold AboveDeps
    rw [← List.map_reverse, List.pairwise_append]
    refine ⟨?_, ?_, ?_⟩
    · rw [List.pairwise_map]
      exact List.Pairwise.imp (fun _ h => by simp at h) (List.pairwise_of_forall (R := fun _ _ => True) (fun _ _ => trivial))
    · rw [List.pairwise_cons]; exact ⟨ha'.1, ha'.2⟩
    · intro e he f hf hft
      simp only [List.mem_map, List.mem_reverse] at he
      obtain ⟨c, hc, rfl⟩ := he
      rcases List.mem_cons.1 hf with rfl | hf
      · exact hdep c hc
      · exact (ha'.1 f hf hft).trans (hdep c hc)

theorem potential_step {S : Sem Op V E W} {g : Graph Op} {feeds : List (Feed V)} (hw : WF g) (hac : Acyclic g)
    {targets : List Nat} {st st' : EvalState V E W} {e : Nat × Bool} {rest : List (Nat × Bool)} (hstk : st.stack = e :: rest)
    (hi : Inv g targets st) (ha : AboveDeps g st.stack) (h : step S g feeds e { st with stack := rest } = .ok st') :
    potential g st' + 1 ≤ potential g st := by
  obtain ⟨id, b⟩ := e
  have hid := (hi.stackNeeded (id, b) (by simp [hstk])).1
  simp only [step, bind_ok] at h
  obtain ⟨n, hn, h⟩ := h
  have hn := access_ok.1 hn
  rw [hstk] at ha
  have ha' := List.pairwise_cons.1 ha
  unfold potential
  rw [hstk]
  split at h
  · rename_i hb; subst hb
    have hle : unexp g st' ≤ unexp g st := by
      apply unexp_mono
      intro k hk
      rcases visit_ok h with ⟨hwn, rfl⟩ | ⟨_, hs, r, b, hsto, hlog, _⟩
      · rcases hk with hk | hk
        · exact .inl (.inl hk)
        · rw [hstk] at hk
          rcases List.mem_cons.1 hk with hk | hk
          · cases hk
            rcases (wouldNotVisit_iff hn st.storage).1 hwn with h1 | h1
            · right
              have hl : n.isLeafInput = true := by
                cases hl : n.isLeafInput with
                | true => rfl
                | false => exact absurd ((isOp_iff hn).2 hl) h1
              simp [deg, hn, hw.leafSource _ _ hn hl]
            · exact .inl (.inl h1)
          · exact .inl (.inr hk)
      · left
        rcases hk with hk | hk
        · left; rw [hsto]; simp only [insert]; split <;> simp_all
        · rw [hstk] at hk
          rcases List.mem_cons.1 hk with hk | hk
          · cases hk; left; rw [hsto]; simp [insert]
          · right; rw [hs]; exact hk
    have hst : st'.stack = rest := by
      rcases visit_ok h with ⟨_, rfl⟩ | ⟨_, hs, _⟩
      · rfl
      · exact hs
    rw [hst]
    simp only [stackWeight, List.map_cons, List.sum_cons, if_true]
    omega
  · rename_i hb
    have hb : b = false := by simpa using hb
    subst hb
    simp only [bind_ok] at h
    obtain ⟨cs, hcs, h⟩ := h
    cases h
    have hlen := childrenToPush_length hcs
    have hcs := childrenToPush_ok hcs
    simp only [stackWeight_append, stackWeight_falses]
    have hw2 : stackWeight ((id, false) :: rest) = 2 + stackWeight rest := by simp [stackWeight]
    have hw1 : stackWeight ((id, true) :: rest) = 1 + stackWeight rest := by simp [stackWeight]
    rw [hw1, hw2]
    have hsub : ∀ k, Expanded st k → Expanded ({ st with stack := (cs.map (fun c => (c, false))).reverse ++ (id, true) :: rest } : EvalState V E W) k := by
      intro k hk
      rcases hk with hk | hk
      · exact .inl hk
      · right
        rw [hstk] at hk
        simp only [List.mem_cons, Prod.mk.injEq] at hk
        simp only [List.mem_append, List.mem_cons]
        rcases hk with ⟨_, hk⟩ | hk
        · cases hk
        · exact .inr (.inr hk)
    by_cases hexp : Expanded st id
    · -- already computed: nothing is pushed
      have hstored : (st.storage id).isSome = true := by
        rcases hexp with h1 | h1
        · exact h1
        · rw [hstk] at h1
          simp only [List.mem_cons, Prod.mk.injEq] at h1
          rcases h1 with ⟨_, h1⟩ | h1
          · cases h1
          · exact absurd (ha'.1 (id, true) h1 rfl) (hac id)
      have hnil : cs = [] := by
        cases cs with
        | nil => rfl
        | cons c cs =>
          obtain ⟨i, hi', rfl, hop, hnone⟩ := (hcs c).1 (by simp)
          have := topoLog_closed hi.topo ((hi.stored id).1 hstored) (b := i.id) ⟨⟨n, hn, i, hi', rfl⟩, hop⟩
          have := (hi.stored i.id).2 this
          simp [hnone] at this
      have hu := unexp_mono (g := g) (fun k hk => .inl (hsub k hk))
      subst hnil
      simp only [List.length_nil, List.map_nil, List.reverse_nil, List.nil_append] at hu ⊢
      omega
    · have hu := unexp_drop hid hsub hexp (.inr (by simp))
      have hdeg : deg g id = n.incoming.length := by simp [deg, hn]
      rw [hdeg] at hu
      omega

theorem loop_total {S : Sem Op V E W} {g : Graph Op} {feeds : List (Feed V)} (hw : WF g) (hac : Acyclic g)
    {targets : List Nat} : ∀ (fuel : Nat) (st : EvalState V E W), Inv g targets st → AboveDeps g st.stack →
      potential g st ≤ fuel → ∃ r, loop S g feeds fuel st = some r := by
  intro fuel
  induction fuel with
  | zero =>
    intro st hi ha hp
    unfold loop
    split
    · exact ⟨_, rfl⟩
    · rename_i e rest hs
      exfalso
      have : 1 ≤ stackWeight st.stack := by
        rw [hs]; simp only [stackWeight, List.map_cons, List.sum_cons]; split <;> omega
      unfold potential at hp; omega
  | succ fuel ih =>
    intro st hi ha hp
    unfold loop
    split
    · exact ⟨_, rfl⟩
    · rename_i e rest hs
      simp only
      split
      · exact ⟨_, rfl⟩
      · rename_i st1 h1
        have := potential_step hw hac hs hi ha h1
        exact ih st1 (inv_step hw hs hi h1) (aboveDeps_step hs ha h1) (by omega)

/-- Total number of inputs of all the nodes. -/
def edgeCount (g : Graph Op) : Nat := (g.nodes.map (fun n => n.incoming.length)).sum

theorem sum_deg {g : Graph Op} : ∑ id ∈ Finset.range g.nodes.length, deg g id = edgeCount g := by
  have : ∀ (l : List (Node Op)), ∑ id ∈ Finset.range l.length,
      (match l[id]? with | some n => n.incoming.length | none => 0) = (l.map (fun n => n.incoming.length)).sum := by
    intro l
    induction l with
    | nil => simp
    | cons a l ih =>
      rw [List.length_cons, Finset.sum_range_succ']
      simp only [List.getElem?_cons_succ, List.getElem?_cons_zero, List.map_cons, List.sum_cons]
      rw [ih]; omega
  exact this g.nodes

theorem potential_init {g : Graph Op} (targets : List Nat) (env : List V) (w : W) :
    potential g (initState targets env w : EvalState V E W) ≤ 2 * (targets.length + edgeCount g) := by
  classical
  have h1 : unexp g (initState targets env w : EvalState V E W) ≤ edgeCount g := by
    rw [← sum_deg]
    unfold unexp
    apply Finset.sum_le_sum
    intro id _
    split <;> omega
  have h2 : stackWeight (initState targets env w : EvalState V E W).stack = 2 * targets.length :=
    stackWeight_falses targets
  unfold potential
  omega

end Eval
end Verif
