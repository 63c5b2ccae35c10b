import Verif.Spec.Eval
import Verif.Lemmas.GraphHistory

/-! Invariants of the depth-first traversal, independent of the values computed. -/

namespace Verif
open Spec Relation
variable {Op V E W : Type}

namespace Eval
open Graph

theorem isOp_iff {g : Graph Op} {id : Nat} {n : Node Op} (h : g.nodes[id]? = some n) :
    IsOp g id ↔ n.isLeafInput = false := by
  unfold IsOp Node.isLeafInput Node.isVariable
  rw [h]
  constructor
  · rintro ⟨m, hm, h1, h2⟩; cases hm; simp [h1, h2]
  · intro h'; simp at h'; exact ⟨n, rfl, h'⟩

theorem wouldNotVisit_iff {g : Graph Op} {id : Nat} {n : Node Op} (h : g.nodes[id]? = some n)
    (s : Storage V E) : wouldNotVisit n id s = true ↔ ¬ IsOp g id ∨ (s id).isSome := by
  rw [isOp_iff h, wouldNotVisit, Bool.or_eq_true]
  exact or_congr (by rw [Node.isLeafInput, Bool.not_eq_false]) Iff.rfl

theorem uses_isOp_left {g : Graph Op} (hw : WF g) {a b : Nat} (h : Uses g a b) : IsOp g a := by
  obtain ⟨⟨n, hn, i, hi, _⟩, _⟩ := h
  rw [isOp_iff hn]
  cases hl : n.isLeafInput with
  | false => rfl
  | true => have := hw.leafSource _ _ hn hl; simp [this] at hi

theorem childrenToPush_ok {g : Graph Op} {s : Storage V E} : ∀ {is : List Incoming} {cs : List Nat},
    childrenToPush g s is = .ok cs →
    ∀ c, c ∈ cs ↔ ∃ i ∈ is, i.id = c ∧ IsOp g c ∧ s c = none
  | [], cs, h => by simp [childrenToPush] at h; simp [h]
  | i :: is, cs, h => by
    simp only [childrenToPush, bind_ok] at h
    obtain ⟨n, hn, rest, hr, h⟩ := h
    have ih := childrenToPush_ok hr
    have hwn := wouldNotVisit_iff (access_ok.1 hn) s
    intro c
    cases h
    split
    · rename_i hw
      have hw := hwn.1 hw
      rw [ih]
      constructor
      · rintro ⟨j, hj, h⟩; exact ⟨j, by simp [hj], h⟩
      · rintro ⟨j, hj, rfl, h1, h2⟩
        rcases List.mem_cons.1 hj with rfl | hj
        · rcases hw with hw | hw
          · exact absurd h1 hw
          · simp [h2] at hw
        · exact ⟨j, hj, rfl, h1, h2⟩
    · rename_i hw
      have hw : ¬ (¬ IsOp g i.id ∨ (s i.id).isSome = true) := fun h => hw (hwn.2 h)
      rw [List.mem_cons, ih]
      constructor
      · rintro (rfl | ⟨j, hj, h⟩)
        · refine ⟨i, by simp, rfl, Classical.not_not.1 (fun h => hw (.inl h)), ?_⟩
          cases hs : s i.id with
          | none => rfl
          | some _ => exact absurd (.inr (by simp [hs])) hw
        · exact ⟨j, by simp [hj], h⟩
      · rintro ⟨j, hj, rfl, h1, h2⟩
        rcases List.mem_cons.1 hj with rfl | hj
        · exact .inl rfl
        · exact .inr ⟨j, hj, rfl, h1, h2⟩

theorem childrenToPush_total {g : Graph Op} {s : Storage V E} : ∀ {is : List Incoming},
    (∀ i ∈ is, i.id < g.nodes.length) → ∃ cs, childrenToPush g s is = .ok cs
  | [], _ => ⟨[], rfl⟩
  | i :: is, h => by
    obtain ⟨cs, hcs⟩ := childrenToPush_total (s := s) (is := is) (fun j hj => h j (by simp [hj]))
    have hi := h i (by simp)
    have : g.access i.id = .ok g.nodes[i.id] := access_ok.2 (by simp [hi])
    exact ⟨_, by simp only [childrenToPush, this, hcs, bind, Except.bind]; rfl⟩

/-- What a visit does, without looking at values. -/
theorem visit_ok {S : Sem Op V E W} {g : Graph Op} {feeds : List (Feed V)} {n : Node Op} {id : Nat}
    {st st' : EvalState V E W} (h : visit S g feeds n id st = .ok st') :
    (wouldNotVisit n id st.storage = true ∧ st' = st) ∨
    (wouldNotVisit n id st.storage = false ∧ st'.stack = st.stack ∧ ∃ r b,
      st'.storage = insert st.storage id r ∧ st'.log = (id, b) :: st.log ∧
      ((b = false ∧ st'.env = st.env ∧ st'.world = st.world ∧
          ∃ e, r = .error e ∧ gather S g feeds st.storage st.env n.incoming = .ok (.error e)) ∨
       (b = true ∧ ∃ xs w ws ys status, gather S g feeds st.storage st.env n.incoming = .ok (.ok xs) ∧
          S.compute n.op st.world xs = .done w ws ys status ∧ (S.debug && ys.isEmpty) = false ∧
          st'.world = w ∧ st'.env = applyWrites g n.incoming ws st.env ∧
          r = (match status with | .ok () => .ok ys | .error e => .error e)))) := by
  unfold visit at h
  split at h
  · rename_i hw; cases h; exact .inl ⟨hw, rfl⟩
  · rename_i hw
    refine .inr ⟨by simpa using hw, ?_⟩
    simp only [bind_ok] at h
    obtain ⟨ins, hins, h⟩ := h
    split at h
    · rename_i e
      cases h
      exact ⟨rfl, _, _, rfl, rfl, .inl ⟨rfl, rfl, rfl, e, rfl, hins⟩⟩
    · rename_i xs
      split at h
      · cases h
      · rename_i w ws ys status hc
        split at h
        · cases h
        · rename_i hd
          cases h
          exact ⟨rfl, _, _, rfl, rfl, .inr ⟨rfl, xs, w, ws, ys, status, hins, hc, by simpa using hd, rfl, rfl, rfl⟩⟩

/-- Traversal obligations: for each entry marked `true`, each op it uses is already computed or lies above it. -/
def Pending (g : Graph Op) (P : Nat → Prop) : List Nat → List (Nat × Bool) → Prop
  | _, [] => True
  | above, (id, b) :: l => (b = true → ∀ c, Uses g id c → P c ∨ c ∈ above) ∧ Pending g P (id :: above) l

theorem Pending.mono {g : Graph Op} {P Q : Nat → Prop} : ∀ {l : List (Nat × Bool)} {A B : List Nat},
    (∀ c, IsOp g c → P c ∨ c ∈ A → Q c ∨ c ∈ B) → Pending g P A l → Pending g Q B l
  | [], _, _, _, _ => trivial
  | (id, b) :: l, A, B, h, hp => by
    refine ⟨fun hb c hc => h c hc.2 (hp.1 hb c hc), ?_⟩
    refine Pending.mono ?_ hp.2
    intro c hc hor
    rcases hor with h1 | h1
    · rcases h c hc (.inl h1) with h2 | h2
      · exact .inl h2
      · exact .inr (by simp [h2])
    · rcases List.mem_cons.1 h1 with rfl | h1
      · exact .inr (by simp)
      · rcases h c hc (.inr h1) with h2 | h2
        · exact .inl h2
        · exact .inr (by simp [h2])

theorem pending_falses {g : Graph Op} {P : Nat → Prop} {l : List (Nat × Bool)} : ∀ {cs : List Nat} {A : List Nat},
    Pending g P (cs.reverse ++ A) l → Pending g P A (cs.map (fun c => (c, false)) ++ l)
  | [], A, h => h
  | c :: cs, A, h => by
    refine ⟨by simp, ?_⟩
    apply pending_falses
    simpa using h

/-- each entry of the (newest first) log comes after the ops it uses -/
def TopoLog (g : Graph Op) : List Nat → Prop
  | [] => True
  | id :: l => (∀ c, Uses g id c → c ∈ l) ∧ TopoLog g l

structure Inv (g : Graph Op) (targets : List Nat) (st : EvalState V E W) : Prop where
  stored : ∀ id, (st.storage id).isSome ↔ id ∈ st.log.map Prod.fst
  nodup : (st.log.map Prod.fst).Nodup
  topo : TopoLog g (st.log.map Prod.fst)
  logNeeded : ∀ id ∈ st.log.map Prod.fst, Needed g targets id ∧ IsOp g id
  stackNeeded : ∀ e ∈ st.stack, e.1 < g.nodes.length ∧ (IsOp g e.1 → Needed g targets e.1)
  pending : Pending g (fun c => (st.storage c).isSome) [] st.stack
  targetsIn : ∀ t ∈ targets, IsOp g t → (st.storage t).isSome ∨ t ∈ st.stack.map Prod.fst

theorem inv_init {g : Graph Op} {targets : List Nat} (ht : ∀ t ∈ targets, t < g.nodes.length) (env : List V) (w : W) :
    Inv g targets (initState targets env w : EvalState V E W) := by
  constructor
  · simp [initState]
  · simp [initState]
  · simp [initState, TopoLog]
  · simp [initState]
  · intro e he
    simp [initState] at he
    obtain ⟨t, h, rfl⟩ := he
    exact ⟨ht t h, fun ho => ⟨t, h, ho, .refl⟩⟩
  · have := pending_falses (g := g) (P := fun c => ((initState targets env w : EvalState V E W).storage c).isSome = true)
      (l := []) (cs := targets.reverse) (A := []) trivial
    simpa [initState, List.map_reverse] using this
  · intro t h _
    right; simp [initState, h]

theorem inv_step {S : Sem Op V E W} {g : Graph Op} {feeds : List (Feed V)} (hw : WF g) {targets : List Nat}
    {st st' : EvalState V E W} {e : Nat × Bool} {rest : List (Nat × Bool)} (hstk : st.stack = e :: rest)
    (hi : Inv g targets st) (h : step S g feeds e { st with stack := rest } = .ok st') : Inv g targets st' := by
  obtain ⟨id, b⟩ := e
  simp only [step, bind_ok] at h
  obtain ⟨n, hn, h⟩ := h
  have hn := access_ok.1 hn
  have hidNeeded := hi.stackNeeded (id, b) (by simp [hstk])
  have hpend := hi.pending
  rw [hstk] at hpend
  split at h
  · -- visit
    rename_i hb
    subst hb
    have hrest : ∀ e ∈ rest, e.1 < g.nodes.length ∧ (IsOp g e.1 → Needed g targets e.1) :=
      fun e he => hi.stackNeeded e (by simp [hstk, he])
    rcases visit_ok h with ⟨hwn, rfl⟩ | ⟨hwn, hs, r, b, hsto, hlog, _⟩
    · have hwn := (wouldNotVisit_iff hn st.storage).1 hwn
      refine ⟨hi.stored, hi.nodup, hi.topo, hi.logNeeded, hrest, ?_, ?_⟩
      · refine Pending.mono ?_ hpend.2
        intro c hc hor
        rcases hor with h1 | h1
        · exact .inl h1
        · simp at h1; subst h1
          rcases hwn with h2 | h2
          · exact absurd hc h2
          · exact .inl h2
      · intro t ht hop
        rcases hi.targetsIn t ht hop with h1 | h1
        · exact .inl h1
        · rw [hstk] at h1
          rcases List.mem_cons.1 h1 with rfl | h1
          · rcases hwn with h2 | h2
            · exact absurd hop h2
            · exact .inl h2
          · exact .inr h1
    · have hwn' : ¬ (¬ IsOp g id ∨ (st.storage id).isSome = true) := by
        intro h'; rw [(wouldNotVisit_iff hn st.storage).2 h'] at hwn; cases hwn
      have hop : IsOp g id := Classical.not_not.1 (fun h => hwn' (.inl h))
      have hnone : ¬ (st.storage id).isSome = true := fun h => hwn' (.inr h)
      have hmono : ∀ c, (st.storage c).isSome = true → (st'.storage c).isSome = true := by
        intro c hc; rw [hsto]; simp only [insert]; split <;> simp_all
      have hid : (st'.storage id).isSome = true := by rw [hsto]; simp [insert]
      refine ⟨?_, ?_, ?_, ?_, ?_, ?_, ?_⟩
      · intro k
        rw [hsto, hlog]
        simp only [insert, List.map_cons, List.mem_cons]
        split
        · rename_i hk; simp [hk]
        · rename_i hk; simp only [hi.stored k]; exact ⟨.inr, fun h => h.resolve_left hk⟩
      · rw [hlog]
        simp only [List.map_cons, List.nodup_cons]
        exact ⟨fun hm => hnone ((hi.stored id).2 hm), hi.nodup⟩
      · rw [hlog]
        simp only [List.map_cons, TopoLog]
        refine ⟨?_, hi.topo⟩
        intro c hc
        rcases hpend.1 rfl c hc with h1 | h1
        · exact (hi.stored c).1 h1
        · simp at h1
      · rw [hlog]
        intro k hk
        rcases List.mem_cons.1 hk with rfl | hk
        · exact ⟨hidNeeded.2 hop, hop⟩
        · exact hi.logNeeded k hk
      · rw [hs]; exact hrest
      · rw [hs]
        refine Pending.mono ?_ hpend.2
        intro c _ hor
        rcases hor with h1 | h1
        · exact .inl (hmono c h1)
        · simp at h1; subst h1; exact .inl hid
      · intro t ht hop'
        rcases hi.targetsIn t ht hop' with h1 | h1
        · exact .inl (hmono t h1)
        · rw [hstk] at h1
          rcases List.mem_cons.1 h1 with rfl | h1
          · exact .inl hid
          · rw [hs]; exact .inr h1
  · -- expand
    simp only [bind_ok] at h
    obtain ⟨cs, hcs, h⟩ := h
    cases h
    have hcs := childrenToPush_ok hcs
    refine ⟨hi.stored, hi.nodup, hi.topo, hi.logNeeded, ?_, ?_, ?_⟩
    · intro e he
      simp only [List.mem_append, List.mem_reverse, List.mem_map, List.mem_cons] at he
      rcases he with ⟨c, hc, rfl⟩ | rfl | he
      · obtain ⟨i, hi', rfl, hop, _⟩ := (hcs c).1 hc
        refine ⟨hw.closed _ _ hn i hi', fun _ => ?_⟩
        have hu : Uses g id i.id := ⟨⟨n, hn, i, hi', rfl⟩, hop⟩
        obtain ⟨t, ht, ho, hr⟩ := hidNeeded.2 (uses_isOp_left hw hu)
        exact ⟨t, ht, ho, hr.tail hu⟩
      · exact hidNeeded
      · exact hi.stackNeeded e (by simp [hstk, he])
    · rw [← List.map_reverse]
      apply pending_falses
      refine ⟨?_, ?_⟩
      · intro _ c hc
        cases hs : st.storage c with
        | some _ => left; simp [hs]
        | none =>
          right
          obtain ⟨⟨m, hm, i, hi', rfl⟩, hop⟩ := hc
          rw [hn] at hm; cases hm
          simp only [List.reverse_reverse, List.append_nil]
          exact (hcs _).2 ⟨i, hi', rfl, hop, hs⟩
      · refine Pending.mono ?_ hpend.2
        intro c _ hor
        rcases hor with h1 | h1
        · exact .inl h1
        · simp at h1; subst h1; exact .inr (by simp)
    · intro t ht hop
      rcases hi.targetsIn t ht hop with h1 | h1
      · exact .inl h1
      · right
        rw [hstk] at h1
        rcases List.mem_cons.1 h1 with h1 | h1
        · simp only at h1; subst h1; simp
        · simp only [List.map_append, List.map_cons, List.mem_append, List.mem_cons]
          exact .inr (.inr h1)

/-- Induction principle for finished runs of the loop. -/
theorem loop_inv {S : Sem Op V E W} {g : Graph Op} {feeds : List (Feed V)} (P : EvalState V E W → Prop)
    (hstep : ∀ st st' e rest, st.stack = e :: rest → P st →
      step S g feeds e { st with stack := rest } = .ok st' → P st') :
    ∀ fuel st st', P st → loop S g feeds fuel st = some (.ok st') → P st' ∧ st'.stack = [] := by
  intro fuel
  induction fuel with
  | zero =>
    intro st st' hP h
    unfold loop at h
    split at h
    · rename_i hs; cases h; exact ⟨hP, hs⟩
    · cases h
  | succ fuel ih =>
    intro st st' hP h
    unfold loop at h
    split at h
    · rename_i hs; cases h; exact ⟨hP, hs⟩
    · rename_i e rest hs
      simp only at h
      split at h
      · cases h
      · rename_i st1 h1
        exact ih st1 st' (hstep st st1 e rest hs hP h1) h

theorem topoLog_closed {g : Graph Op} : ∀ {l : List Nat}, TopoLog g l → ∀ {a b}, a ∈ l → Uses g a b → b ∈ l
  | id :: l, h, a, b, ha, hu => by
    rcases List.mem_cons.1 ha with rfl | ha
    · exact List.mem_cons_of_mem _ (h.1 b hu)
    · exact List.mem_cons_of_mem _ (topoLog_closed h.2 ha hu)

theorem topoLog_order {g : Graph Op} : ∀ {l : List Nat}, TopoLog g l → InDependencyOrder g l.reverse
  | [], _ => by intro pre a post h; simp at h
  | id :: l, h => by
    intro pre a post he b hb
    simp only [List.reverse_cons] at he
    rcases List.eq_nil_or_concat post with rfl | ⟨post', x, rfl⟩
    · have := List.append_inj' (t₁ := [id]) (t₂ := [a]) he rfl
      obtain ⟨h1, h2⟩ := this
      cases h2
      rw [← h1]; simpa using h.1 b hb
    · have he' : l.reverse ++ [id] = (pre ++ a :: post') ++ [x] := by simp [he]
      obtain ⟨h1, _⟩ := List.append_inj' he' rfl
      exact topoLog_order h.2 pre a post' h1 b hb

/-- At the end of a run everything needed has been computed. -/
theorem Inv.complete {g : Graph Op} {targets : List Nat} {st : EvalState V E W} (h : Inv g targets st)
    (hs : st.stack = []) {b : Nat} (hb : Needed g targets b) : b ∈ st.log.map Prod.fst := by
  obtain ⟨t, ht, hop, hr⟩ := hb
  have h0 : t ∈ st.log.map Prod.fst := by
    rcases h.targetsIn t ht hop with h1 | h1
    · exact (h.stored t).1 h1
    · simp [hs] at h1
  induction hr with
  | refl => exact h0
  | tail _ hu ih => exact topoLog_closed h.topo ih hu

end Eval
end Verif
