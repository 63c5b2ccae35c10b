import Mathlib.Logic.Relation
import Mathlib.Tactic.ByContra
import Verif.Spec.Aliasing

/-! Simulation between evaluation with memory and evaluation with values. -/

namespace Verif
namespace Mem
open Spec
variable {Op V D E W : Type}

/-- Both fail with the same panic or both succeed with related results. -/
def ResRel {α β : Type} (R : α → β → Prop) : Except Fault α → Except Panic β → Prop
  | .ok a, .ok b => R a b
  | .error (.panic p), .error p' => p = p'
  | _, _ => False

theorem ResRel.bind {α β γ δ : Type} {R : α → β → Prop} {Q : γ → δ → Prop} {x : Except Fault α} {y : Except Panic β} {f : α → Except Fault γ}
    {f' : β → Except Panic δ} (h : ResRel R x y) (hf : ∀ a b, R a b → ResRel Q (f a) (f' b)) : ResRel Q (x >>= f) (y >>= f') := by
  match x, y, h with
  | .ok a, .ok b, h => exact hf a b h
  | .error (.panic p), .error p', h => exact h

theorem resRel_lift {α : Type} (x : Except Panic α) : ResRel (fun a b => a = b) (liftPanic x) x := by
  cases x <;> simp [ResRel, liftPanic]

/-- Entries of the two storages correspond. -/
def EntryRel (P : Nat → Slot V D → V → Prop) : Option (Except E (List (Slot V D))) → Option (Except E (List V)) → Prop
  | none, none => True
  | some (.error e), some (.error e') => e = e'
  | some (.ok ss), some (.ok vs) => ss.length = vs.length ∧ ∀ j s v, ss[j]? = some s → vs[j]? = some v → P j s v
  | _, _ => False

theorem EntryRel.imp {P Q : Nat → Slot V D → V → Prop} {x : Option (Except E (List (Slot V D)))} {y : Option (Except E (List V))}
    (h : EntryRel P x y) (hPQ : ∀ ss, x = some (.ok ss) → ∀ j s v, ss[j]? = some s → P j s v → Q j s v) : EntryRel Q x y := by
  match x, y, h with
  | none, none, _ => trivial
  | some (.error e), some (.error e'), h => exact h
  | some (.ok ss), some (.ok vs), ⟨h1, h2⟩ => exact ⟨h1, fun j s v hs hv => hPQ ss rfl j s v hs (h2 j s v hs hv)⟩

/-- A stored output is readable, has the given value, is not memory of a variable, and points where `MayAlias` allows it. -/
def SlotOk (M : MSem Op V D E W) (g : Graph Op) (env : List V) (heap : Nat → Nat → Option V) (id j : Nat) (s : Slot V D) (v : V) : Prop :=
  (∀ vid, (s.place id j).loc ≠ .var vid) ∧ read M.proj env heap (s.place id j) = some v ∧
  ∀ p a b, s = .view p → p.loc = .res a b → MayAlias M g id j a b

structure Sim (M : MSem Op V D E W) (g : Graph Op) (st : MState V D E W) (es : EvalState V E W) : Prop where
  stack : st.stack = es.stack
  env : st.env = es.env
  world : st.world = es.world
  log : st.log = es.log
  entries : ∀ id, EntryRel (SlotOk M g st.env st.heap id) (st.storage id) (es.storage id)
  alloc : ∀ id j, st.heap id j ≠ none → st.storage id ≠ none

theorem EntryRel.isSome {P : Nat → Slot V D → V → Prop} {x : Option (Except E (List (Slot V D)))} {y : Option (Except E (List V))}
    (h : EntryRel P x y) : x.isSome = y.isSome := by
  match x, y, h with
  | none, none, _ => rfl
  | some (.error e), some (.error e'), h => rfl
  | some (.ok ss), some (.ok vs), h => rfl

theorem childrenToPush_congr {A B F : Type} {g : Graph Op} {s : Storage A F} {s' : Storage B F} (h : ∀ id, (s id).isSome = (s' id).isSome) (is : List Incoming) :
    Eval.childrenToPush g s is = Eval.childrenToPush g s' is := by
  induction is with
  | nil => rfl
  | cons i is ih =>
    simp only [Eval.childrenToPush, ih, Eval.wouldNotVisit, h]
    rfl

theorem read_env {proj : D → V → V} {env env' : List V} {heap : Nat → Nat → Option V} {p : Place V D} (h : ∀ vid, p.loc ≠ .var vid) :
    read proj env heap p = read proj env' heap p := by
  unfold read
  cases hl : p.loc with
  | var vid => exact absurd hl (h vid)
  | feed v => rfl
  | res a b => rfl

/-- Reads are not affected by changes of memory that was not allocated. -/
theorem read_heap {proj : D → V → V} {env env' : List V} {heap heap' : Nat → Nat → Option V} {p : Place V D} {v : V}
    (h : ∀ vid, p.loc ≠ .var vid) (hh : ∀ a b, heap a b ≠ none → heap' a b = heap a b) (hv : read proj env heap p = some v) :
    read proj env' heap' p = some v := by
  rw [read_env (env' := env) h, ← hv]
  unfold read at hv ⊢
  cases hl : p.loc with
  | var vid => exact absurd hl (h vid)
  | feed v => rfl
  | res a b =>
    rw [hl] at hv
    simp only at hv ⊢
    rw [hh a b (fun hn => by rw [hn] at hv; cases hv)]

theorem read_append {proj : D → V → V} {env : List V} {heap : Nat → Nat → Option V} {p : Place V D} {d : D} :
    read proj env heap ⟨p.loc, p.path ++ [d]⟩ = (read proj env heap p).map (proj d) := by
  unfold read
  simp only [List.foldl_append, Option.map_map]
  rfl

/-- What a collected input satisfies. -/
def InOk (M : MSem Op V D E W) (g : Graph Op) (st : MState V D E W) (i : Incoming) (x : MInput V D) (y : OpInput V) : Prop :=
  x.kind = y.kind ∧ x.val = y.val ∧ (x.kind = .nonVariable → (∀ vid, x.place.loc ≠ .var vid) ∧ read M.proj st.env st.heap x.place = some x.val ∧
    ∀ a b, x.place.loc = .res a b → (i.id = a ∧ i.selector = b) ∨ MayAlias M g i.id i.selector a b)

/-- Both are the same error or related. -/
def ErrRel {α β : Type} (R : α → β → Prop) : Except E α → Except E β → Prop
  | .ok a, .ok b => R a b
  | .error e, .error e' => e = e'
  | _, _ => False

theorem sim_gatherOne {M : MSem Op V D E W} {g : Graph Op} {feeds : List (Feed V)} {st : MState V D E W} {es : EvalState V E W} (h : Sim M g st es)
    (i : Incoming) :
    ResRel (ErrRel (InOk M g st i)) (gatherOne M g feeds st i) (Eval.gatherOne (valueSem M) g feeds es.storage es.env i) := by
  unfold gatherOne Eval.gatherOne
  refine ResRel.bind (resRel_lift _) ?_
  rintro n _ rfl
  cases n.placeholderName with
  | some name =>
    refine ResRel.bind (resRel_lift _) ?_
    rintro v _ rfl
    exact ⟨rfl, rfl, fun _ => ⟨fun _ hc => (by cases hc), rfl, fun _ _ hc => (by cases hc)⟩⟩
  | none =>
    cases n.variableId with
    | some vid =>
      simp only [h.env]
      cases es.env[vid]? with
      | none => exact rfl
      | some a =>
        refine ⟨rfl, rfl, fun hk => ?_⟩
        exfalso
        simp only at hk
        split at hk <;> cases hk
    | none =>
      have he := h.entries i.id
      unfold Eval.storageGet
      cases hs : st.storage i.id with
      | none =>
        cases hs' : es.storage i.id with
        | none => exact rfl
        | some r => rw [hs, hs'] at he; cases r <;> exact he.elim
      | some r =>
        cases hs' : es.storage i.id with
        | none => rw [hs, hs'] at he; cases r <;> exact he.elim
        | some r' =>
          rw [hs, hs'] at he
          match r, r', he with
          | .error e, .error e', he => exact he
          | .ok ss, .ok vs, ⟨h1, h2⟩ =>
            cases h3 : ss[i.selector]? with
            | none =>
              have h4 : vs[i.selector]? = none := by
                rw [List.getElem?_eq_none_iff] at h3 ⊢; omega
              simp only [h3, h4]
              exact rfl
            | some slot =>
              have hlt : i.selector < vs.length := by
                have := (List.getElem?_eq_some_iff.1 h3).1; omega
              have h4 := List.getElem?_eq_getElem hlt
              obtain ⟨k1, k2, k3⟩ := h2 _ _ _ h3 h4
              simp only [h3, h4]
              simp only [liftPanic, bind, Except.bind, k2]
              refine ⟨rfl, rfl, fun _ => ⟨k1, k2, fun a b hab => ?_⟩⟩
              cases slot with
              | owned => cases hab; exact .inl ⟨rfl, rfl⟩
              | view p => exact .inr (k3 p a b rfl hab)

theorem sim_gather {M : MSem Op V D E W} {g : Graph Op} {feeds : List (Feed V)} {st : MState V D E W} {es : EvalState V E W} (h : Sim M g st es)
    (is : List Incoming) :
    ResRel (ErrRel (fun xs ys => xs.map (fun x => (⟨x.kind, x.val⟩ : OpInput V)) = ys ∧
        ∀ (k : Nat) x, xs[k]? = some x → ∃ i y, is[k]? = some i ∧ InOk M g st i x y))
      (gather M g feeds st is) (Eval.gather (valueSem M) g feeds es.storage es.env is) := by
  induction is with
  | nil => exact ⟨rfl, fun k x hk => by simp at hk⟩
  | cons i is ih =>
    unfold gather Eval.gather
    refine ResRel.bind (sim_gatherOne h i) ?_
    intro r r' hr
    match r, r', hr with
    | .error e, .error e', hr => exact hr
    | .ok x, .ok y, hr =>
      refine ResRel.bind ih ?_
      intro rs rs' hrs
      match rs, rs', hrs with
      | .error e, .error e', hr => exact hr
      | .ok xs, .ok ys, ⟨h1, h2⟩ =>
        refine ⟨?_, ?_⟩
        · rw [List.map_cons, h1, hr.1, hr.2.1]
        · intro k z hk
          match k, hk with
          | 0, hk => simp at hk; subst hk; exact ⟨i, y, rfl, hr⟩
          | k + 1, hk => simp at hk; simpa using h2 k z hk

theorem appendAll_length {proj : D → V → V} {xs : List (MInput V D)} {ys : List (Out V D)} {ss : List (Slot V D × Option V)}
    (h : appendAll proj xs ys = .ok ss) : ∀ (j : Nat) s, ss[j]? = some s → ∃ y, ys[j]? = some y ∧ appendOut proj xs y = .ok s := by
  induction ys generalizing ss with
  | nil => cases h; intro j s hs; simp at hs
  | cons y ys ih =>
    unfold appendAll at h
    cases h1 : appendOut proj xs y with
    | error f => rw [h1] at h; cases h
    | ok s0 =>
      rw [h1] at h
      cases h2 : appendAll proj xs ys with
      | error f => rw [h2] at h; cases h
      | ok ss0 =>
        rw [h2] at h
        cases h
        intro j s hs
        match j, hs with
        | 0, hs => simp at hs; subst hs; exact ⟨y, rfl, h1⟩
        | j + 1, hs => simp at hs; simpa using ih h2 j s hs

theorem appendOut_cases {proj : D → V → V} {xs : List (MInput V D)} (y : Out V D) :
    (∃ s v, appendOut proj xs y = .ok s ∧ outValue proj (xs.map (fun x => (⟨x.kind, x.val⟩ : OpInput V))) y = some v) ∨
    (appendOut proj xs y = .error (.panic .opPanic) ∧ outValue proj (xs.map (fun x => (⟨x.kind, x.val⟩ : OpInput V))) y = none) := by
  cases y with
  | owned v => exact .inl ⟨_, _, rfl, rfl⟩
  | view k d =>
    unfold appendOut outValue
    cases hk : xs[k]? with
    | none => right; simp [hk]
    | some x =>
      left
      simp only [List.getElem?_map, hk, Option.map_some]
      split
      · exact ⟨_, _, rfl, rfl⟩
      · exact ⟨_, _, rfl, rfl⟩

theorem appendAll_values {proj : D → V → V} {xs : List (MInput V D)} (ys : List (Out V D)) :
    (∃ ss vs, appendAll proj xs ys = .ok ss ∧ outValues proj (xs.map (fun x => (⟨x.kind, x.val⟩ : OpInput V))) ys = some vs ∧
      ss.length = vs.length ∧ vs.length = ys.length ∧ ∀ (j : Nat) y v, ys[j]? = some y → vs[j]? = some v →
        outValue proj (xs.map (fun x => (⟨x.kind, x.val⟩ : OpInput V))) y = some v) ∨
    (appendAll proj xs ys = .error (.panic .opPanic) ∧ outValues proj (xs.map (fun x => (⟨x.kind, x.val⟩ : OpInput V))) ys = none) := by
  induction ys with
  | nil => exact .inl ⟨[], [], rfl, rfl, rfl, rfl, fun j y v hy => by simp at hy⟩
  | cons y ys ih =>
    unfold appendAll outValues
    rcases appendOut_cases (proj := proj) (xs := xs) y with ⟨s, v, h1, h2⟩ | ⟨h1, h2⟩
    · rcases ih with ⟨ss, vs, h3, h4, h5, h6, h7⟩ | ⟨h3, h4⟩
      · left
        refine ⟨s :: ss, v :: vs, by rw [h1, h3]; rfl, by rw [h2, h4]; rfl, by simp [h5], by simp [h6], ?_⟩
        intro j y' v' hy hv
        match j, hy, hv with
        | 0, hy, hv => simp at hy hv; subst hy; subst hv; exact h2
        | j + 1, hy, hv => simp at hy hv; exact h7 j y' v' hy hv
      · right
        exact ⟨by rw [h1, h3]; rfl, by rw [h2, h4]; rfl⟩
    · right
      exact ⟨by rw [h1]; rfl, by rw [h2]; rfl⟩

/-- The slots written by a call are readable and have the values of the outputs. -/
theorem sim_slots {M : MSem Op V D E W} {g : Graph Op} {st : MState V D E W} {n : Node Op} {id : Nat} {xs : List (MInput V D)} {w w' : W}
    (hn : g.nodes[id]? = some n)
    (hxs : ∀ (k : Nat) x, xs[k]? = some x → ∃ i y, n.incoming[k]? = some i ∧ InOk M g st i x y)
    (halloc : ∀ j, st.heap id j = none)
    {ws : List (Nat × V)} {ys : List (Out V D)} {status : Except E Unit}
    (hc : M.compute n.op w (xs.map (fun x => ⟨x.kind, x.val⟩)) = .done w' ws ys status)
    {ss : List (Slot V D × Option V)} (hss : appendAll M.proj xs ys = .ok ss) {env' : List V}
    {j : Nat} {s : Slot V D} {v : V} {y : Out V D} (hs : (ss.map Prod.fst)[j]? = some s) (hy : ys[j]? = some y)
    (hv : outValue M.proj (xs.map (fun x => (⟨x.kind, x.val⟩ : OpInput V))) y = some v) :
    SlotOk M g env' (fun a j => if a = id then (ss[j]?).bind Prod.snd else st.heap a j) id j s v := by
  rw [List.getElem?_map] at hs
  cases hsj : ss[j]? with
  | none => rw [hsj] at hs; cases hs
  | some sp =>
    rw [hsj] at hs
    obtain ⟨y', e1, e2⟩ := appendAll_length hss j sp hsj
    rw [hy] at e1
    cases e1
    simp at hs
    subst hs
    cases y with
    | owned v0 =>
      cases e2
      cases hv
      exact ⟨fun _ hc => (by cases hc), by simp [read, Slot.place, hsj], fun p a b hp => (by cases hp)⟩
    | view k d =>
      simp only [appendOut] at e2
      simp only [outValue, List.getElem?_map] at hv
      cases hk : xs[k]? with
      | none => rw [hk] at hv; cases hv
      | some x =>
        rw [hk] at e2 hv
        simp only [Option.map_some, Option.some.injEq] at hv
        simp only [] at e2
        split at e2
        · cases e2
          exact ⟨fun _ hc => (by cases hc), by simp [read, Slot.place, hsj, hv], fun p a b hp => (by cases hp)⟩
        · rename_i hcv
          cases e2
          have hall : ∀ x ∈ xs, x.kind = .nonVariable := by
            intro z hz
            by_contra hc'
            exact hcv (List.any_eq_true.2 ⟨z, hz, by simpa using hc'⟩)
          obtain ⟨i, y, hi, _, _, hin⟩ := hxs k x hk
          obtain ⟨i1, i2, i3⟩ := hin (hall x (List.mem_of_getElem? hk))
          refine ⟨i1, ?_, ?_⟩
          · show read M.proj env' _ ⟨x.place.loc, x.place.path ++ [d]⟩ = some v
            rw [read_append, read_heap (env := st.env) (heap := st.heap) i1 _ i2, ← hv]
            · rfl
            · intro a b hab
              rw [if_neg]
              rintro rfl
              exact hab (halloc b)
          · intro p a b hp hab
            cases hp
            have hmv : MayView M n.op k j := by
              refine ⟨w, _, w', ws, ys, status, d, hc, ?_, hy⟩
              intro z hz
              obtain ⟨z', hz', rfl⟩ := List.mem_map.1 hz
              exact hall z' hz'
            rcases i3 a b hab with ⟨rfl, rfl⟩ | h
            · exact .direct hn hi hmv
            · exact .through hn hi hmv h

theorem sim_keep {M : MSem Op V D E W} {g : Graph Op} {st : MState V D E W} {es : EvalState V E W} (h : Sim M g st es) {id : Nat} {heap' : Nat → Nat → Option V}
    (hh : ∀ a b, st.heap a b ≠ none → heap' a b = st.heap a b) {env' : List V} :
    EntryRel (SlotOk M g env' heap' id) (st.storage id) (es.storage id) := by
  refine (h.entries id).imp ?_
  rintro ss _ j s v _ ⟨h1, h2, h3⟩
  exact ⟨h1, read_heap h1 hh h2, h3⟩

theorem sim_visit {M : MSem Op V D E W} {g : Graph Op} {feeds : List (Feed V)} {st : MState V D E W} {es : EvalState V E W} (h : Sim M g st es)
    {n : Node Op} {id : Nat} (hn : g.nodes[id]? = some n) :
    ResRel (Sim M g) (visit M g feeds n id st) (Eval.visit (valueSem M) g feeds n id es) := by
  unfold visit Eval.visit
  have hw : Eval.wouldNotVisit n id st.storage = Eval.wouldNotVisit n id es.storage := by
    unfold Eval.wouldNotVisit; rw [(h.entries id).isSome]
  rw [hw]
  split
  · exact h
  · rename_i hno
    have hnone : st.storage id = none := by
      unfold Eval.wouldNotVisit at hno
      have h1 := (h.entries id).isSome
      cases hs : st.storage id with
      | none => rfl
      | some r => rw [hs] at h1; simp [← h1] at hno
    have halloc : ∀ j, st.heap id j = none := by
      intro j
      by_contra hc
      exact h.alloc id j hc hnone
    refine ResRel.bind (sim_gather h n.incoming) ?_
    intro r r' hr
    match r, r', hr with
    | .error e, .error e', hr =>
      subst hr
      refine ⟨h.stack, h.env, h.world, by simp [h.log], ?_, ?_⟩
      · intro k
        simp only [Eval.insert]
        split
        · rfl
        · exact h.entries k
      · intro a j hj
        simp only [Eval.insert]
        split
        · simp
        · exact h.alloc a j hj
    | .ok xs, .ok _, ⟨rfl, hxs⟩ =>
      simp only [valueSem]
      rw [h.world]
      cases hc : M.compute n.op es.world (xs.map (fun x => ⟨x.kind, x.val⟩)) with
      | panic => exact rfl
      | done w ws ys status =>
        simp only
        rcases appendAll_values (proj := M.proj) (xs := xs) ys with ⟨ss, vs, h3, h4, h5, h6, h7⟩ | ⟨h3, h4⟩
        · rw [h3, h4]
          simp only [bind, Except.bind]
          have he : ys.isEmpty = vs.isEmpty := by
            cases ys <;> cases vs <;> simp at h6 ⊢
          rw [he]
          by_cases hd : (M.debug && vs.isEmpty) = true
          · simp only [hd, if_true]; exact rfl
          · rw [Bool.not_eq_true] at hd
            simp only [hd, Bool.false_eq_true, if_false]
            cases status with
            | ok u =>
              cases u
              refine ⟨h.stack, by simp [h.env], rfl, by simp [h.log], ?_, ?_⟩
              · intro k
                simp only [Eval.insert]
                split
                · rename_i hk
                  subst hk
                  refine ⟨by simp [h5], fun j s v hs hv => ?_⟩
                  have hlt : j < ys.length := by
                    have := (List.getElem?_eq_some_iff.1 hv).1; omega
                  exact sim_slots hn hxs halloc hc h3 hs (List.getElem?_eq_getElem hlt) (h7 j _ v (List.getElem?_eq_getElem hlt) hv)
                · refine sim_keep h ?_
                  intro a b hab
                  rw [if_neg]
                  rintro rfl
                  exact hab (halloc b)
              · intro a j hj
                simp only [Eval.insert]
                split
                · simp
                · rename_i hk
                  simp only [if_neg hk] at hj
                  exact h.alloc a j hj
            | error e =>
              refine ⟨h.stack, by simp [h.env], rfl, by simp [h.log], ?_, ?_⟩
              · intro k
                simp only [Eval.insert]
                split
                · exact rfl
                · exact sim_keep h (fun _ _ _ => rfl)
              · intro a j hj
                simp only [Eval.insert]
                split
                · simp
                · exact h.alloc a j hj
        · rw [h3, h4]
          exact rfl

theorem sim_step {M : MSem Op V D E W} {g : Graph Op} {feeds : List (Feed V)} {st : MState V D E W} {es : EvalState V E W} (h : Sim M g st es)
    (e : Nat × Bool) : ResRel (Sim M g) (step M g feeds e st) (Eval.step (valueSem M) g feeds e es) := by
  unfold step Eval.step
  unfold Graph.access
  cases hn : g.nodes[e.1]? with
  | none => exact rfl
  | some n =>
    simp only [liftPanic, bind, Except.bind]
    split
    · exact sim_visit h hn
    · rw [childrenToPush_congr (fun id => (h.entries id).isSome)]
      cases Eval.childrenToPush g es.storage n.incoming with
      | error p => exact rfl
      | ok cs => exact ⟨by simp [h.stack], h.env, h.world, h.log, h.entries, h.alloc⟩

theorem sim_loop {M : MSem Op V D E W} {g : Graph Op} {feeds : List (Feed V)} (fuel : Nat) : ∀ {st : MState V D E W} {es : EvalState V E W}, Sim M g st es →
    (loop M g feeds fuel st = none ∧ Eval.loop (valueSem M) g feeds fuel es = none) ∨
    ∃ r r', loop M g feeds fuel st = some r ∧ Eval.loop (valueSem M) g feeds fuel es = some r' ∧ ResRel (Sim M g) r r' := by
  induction fuel with
  | zero =>
    intro st es h
    unfold loop Eval.loop
    rw [h.stack]
    cases es.stack with
    | nil => exact .inr ⟨_, _, rfl, rfl, h⟩
    | cons e rest => exact .inl ⟨rfl, rfl⟩
  | succ fuel ih =>
    intro st es h
    unfold loop Eval.loop
    rw [h.stack]
    cases es.stack with
    | nil => exact .inr ⟨_, _, rfl, rfl, h⟩
    | cons e rest =>
      simp only
      have hs := sim_step (feeds := feeds) (st := { st with stack := rest }) (es := { es with stack := rest })
        ⟨rfl, h.env, h.world, h.log, h.entries, h.alloc⟩ e
      match h1 : step M g feeds e { st with stack := rest }, h2 : Eval.step (valueSem M) g feeds e { es with stack := rest } with
      | .ok a, .ok b => rw [h1, h2] at hs; exact ih hs
      | .error (.panic p), .error p' => rw [h1, h2] at hs; exact .inr ⟨_, _, rfl, rfl, hs⟩
      | .error .dangling, .error p' => rw [h1, h2] at hs; exact hs.elim
      | .error .dangling, .ok p' => rw [h1, h2] at hs; exact hs.elim
      | .error (.panic p), .ok p' => rw [h1, h2] at hs; exact hs.elim
      | .ok a, .error p' => rw [h1, h2] at hs; exact hs.elim

theorem sim_init {M : MSem Op V D E W} {g : Graph Op} (targets : List Nat) (env : List V) (w : W) :
    Sim M g (initState targets env w) (Eval.initState targets env w) :=
  ⟨rfl, rfl, rfl, rfl, fun _ => trivial, fun _ _ h => absurd rfl h⟩

/-- A step keeps entries of the storage and the memory that belongs to them. -/
theorem step_frame {M : MSem Op V D E W} {g : Graph Op} {feeds : List (Feed V)} {e : Nat × Bool} {st st' : MState V D E W}
    (h : step M g feeds e st = .ok st') : ∀ id, st.storage id ≠ none → st'.storage id = st.storage id ∧ ∀ j, st'.heap id j = st.heap id j := by
  intro id hid
  unfold step at h
  cases hn : liftPanic (g.access e.1) with
  | error f => rw [hn] at h; cases h
  | ok n =>
    rw [hn] at h
    simp only [bind, Except.bind] at h
    split at h
    · unfold visit at h
      split at h
      · cases h; exact ⟨rfl, fun _ => rfl⟩
      · rename_i hno
        have hne : id ≠ e.1 := by
          rintro rfl
          apply hno
          unfold Eval.wouldNotVisit
          cases hs : st.storage e.1 with
          | none => exact absurd hs hid
          | some r => simp
        cases hg : gather M g feeds st n.incoming with
        | error f => rw [hg] at h; cases h
        | ok ins =>
          rw [hg] at h
          simp only [bind, Except.bind] at h
          cases ins with
          | error x => cases h; simp [Eval.insert, hne]
          | ok xs =>
            simp only at h
            split at h
            · cases h
            · rename_i w ws ys status hc
              cases ha : appendAll M.proj xs ys with
              | error f => rw [ha] at h; cases h
              | ok ss =>
                rw [ha] at h
                simp only at h
                split at h
                · cases h
                · cases status with
                  | ok u => cases h; simp [Eval.insert, hne]
                  | error x => cases h; simp [Eval.insert, hne]
    · cases hc : liftPanic (Eval.childrenToPush g st.storage n.incoming) with
      | error f => rw [hc] at h; cases h
      | ok cs => rw [hc] at h; cases h; exact ⟨rfl, fun _ => rfl⟩

/-- Entries that are still to be returned correspond; `gone` are the tensors whose other outputs were freed. -/
theorem sim_aggregate {M : MSem Op V D E W} {g : Graph Op} {feeds : List (Feed V)} {env : List V} (targets : List Nat) : ∀ (ts gone : List Nat)
    (s : Storage (Slot V D) E) (heap : Nat → Nat → Option V) (s' : Storage V E), (∀ t ∈ ts, t ∈ targets) → (∀ t ∈ gone, t ∈ targets) →
    (∀ t ∈ targets, ∀ t' ∈ targets, t ≠ t' → ∀ k, k ≠ 0 → ¬ MayAlias M g t' 0 t k) →
    (∀ t ∈ gone, s t = none) → (∀ t, s t = none ↔ s' t = none) →
    (∃ heap0, (∀ id, EntryRel (fun j slot v => SlotOk M g env heap0 id j slot v) (s id) (s' id)) ∧
      ∀ a b, heap a b ≠ heap0 a b → a ∈ gone ∧ b ≠ 0) →
    ResRel (fun a b => a = b) (aggregate M g feeds env ts s heap) (Eval.aggregate (valueSem M) g feeds env ts s') := by
  intro ts
  induction ts with
  | nil => intros; exact rfl
  | cons t ts ih =>
    intro gone s heap s' hts hgone hal hg1 hnn ⟨heap0, hent, hheap⟩
    unfold aggregate Eval.aggregate
    refine ResRel.bind (resRel_lift _) ?_
    rintro n _ rfl
    have htail : ∀ t ∈ ts, t ∈ targets := fun t h => hts t (List.mem_cons_of_mem _ h)
    cases n.variableId with
    | some vid =>
      dsimp only
      cases env[vid]? with
      | none => exact rfl
      | some a =>
        refine ResRel.bind (ih gone s heap s' htail hgone hal hg1 hnn ⟨heap0, hent, hheap⟩) ?_
        rintro rs _ rfl
        exact rfl
    | none =>
      dsimp only
      cases n.placeholderName with
      | some name =>
        refine ResRel.bind (resRel_lift _) ?_
        rintro v _ rfl
        refine ResRel.bind (ih gone s heap s' htail hgone hal hg1 hnn ⟨heap0, hent, hheap⟩) ?_
        rintro rs _ rfl
        exact rfl
      | none =>
        have hnn' : ∀ u, (fun k => if k = t then none else s k) u = none ↔ (fun k => if k = t then none else s' k) u = none := by
          intro u; dsimp only; split
          · simp
          · exact hnn u
        have hent' : ∀ id, EntryRel (fun j slot v => SlotOk M g env heap0 id j slot v) ((fun k => if k = t then none else s k) id)
            ((fun k => if k = t then none else s' k) id) := by
          intro id; dsimp only; split
          · trivial
          · exact hent id
        refine ResRel.bind (R := fun a b => a.1 = b.1 ∧ a.2.1 = (fun k => if k = t then none else s k) ∧
            b.2 = (fun k => if k = t then none else s' k) ∧ ∀ a' b', a.2.2 a' b' ≠ heap a' b' → a' = t ∧ b' ≠ 0) ?_ ?_
        · unfold take Eval.take
          have he := hent t
          match h1 : s t, h2 : s' t with
          | none, none => exact rfl
          | some (.error e), some (.error e') =>
            rw [h1, h2] at he
            cases he
            exact ⟨rfl, rfl, rfl, fun _ _ hc => absurd rfl hc⟩
          | none, some r => rw [h1, h2] at he; cases r <;> exact he.elim
          | some (.ok ss), none => rw [h1, h2] at he; exact he.elim
          | some (.error e), none => rw [h1, h2] at he; exact he.elim
          | some (.ok ss), some (.error e) => rw [h1, h2] at he; exact he.elim
          | some (.error e), some (.ok vs) => rw [h1, h2] at he; exact he.elim
          | some (.ok ss), some (.ok vs) =>
            rw [h1, h2] at he
            obtain ⟨h3, h4⟩ := he
            cases h5 : ss[0]? with
            | none =>
              have h6 : vs[0]? = none := by rw [List.getElem?_eq_none_iff] at h5 ⊢; omega
              simp only [h5, h6]
              exact rfl
            | some slot =>
              have hlt : 0 < vs.length := by have := (List.getElem?_eq_some_iff.1 h5).1; omega
              have h6 := List.getElem?_eq_getElem hlt
              obtain ⟨k1, k2, k3⟩ := h4 _ _ _ h5 h6
              simp only [h5, h6]
              have hread : read M.proj env heap (slot.place t 0) = some vs[0] := by
                rw [← k2]
                unfold read
                cases hl : (slot.place t 0).loc with
                | var vid => exact absurd hl (k1 vid)
                | feed v => rfl
                | res a b =>
                  dsimp only
                  by_cases hab : heap a b = heap0 a b
                  · rw [hab]
                  · exfalso
                    obtain ⟨c1, c2⟩ := hheap a b hab
                    cases slot with
                    | owned => cases hl; exact c2 rfl
                    | view p =>
                      refine hal a (hgone a c1) t (hts t (by simp)) ?_ b c2 (k3 p a b rfl hl)
                      rintro rfl
                      rw [hg1 a c1] at h1
                      cases h1
              rw [hread]
              refine ⟨rfl, rfl, rfl, ?_⟩
              intro a' b' hc
              dsimp only at hc
              split at hc
              · assumption
              · exact absurd rfl hc
        · rintro ⟨r, s1, heap1⟩ ⟨r', s1'⟩ ⟨h1, h2, h3, h4⟩
          dsimp only at h1 h2 h3 h4
          subst h1
          subst h2
          subst h3
          refine ResRel.bind (ih (t :: gone) _ heap1 _ htail ?_ hal ?_ hnn' ⟨heap0, hent', ?_⟩) ?_
          · intro u hu
            rcases List.mem_cons.1 hu with rfl | hu
            · exact hts _ (by simp)
            · exact hgone u hu
          · intro u hu
            dsimp only
            split
            · rfl
            · rcases List.mem_cons.1 hu with rfl | hu
              · rename_i hc; exact absurd rfl hc
              · exact hg1 u hu
          · intro a b hab
            by_cases hc : heap1 a b = heap a b
            · rw [hc] at hab
              obtain ⟨c1, c2⟩ := hheap a b hab
              exact ⟨List.mem_cons_of_mem _ c1, c2⟩
            · obtain ⟨rfl, c2⟩ := h4 a b hc
              exact ⟨by simp, c2⟩
          · rintro rs _ rfl
            exact rfl

theorem Sim.same {M : MSem Op V D E W} {g : Graph Op} {st : MState V D E W} {es : EvalState V E W} (h : Sim M g st es) : SameResults M st es := by
  refine ⟨h.stack, h.env, h.world, h.log, ?_⟩
  intro id
  have he := h.entries id
  match h1 : st.storage id, h2 : es.storage id with
  | none, none => exact ⟨by simp, by simp, by simp⟩
  | some (.error e), some (.error e') =>
    rw [h1, h2] at he
    cases he
    exact ⟨by simp, by simp, by simp⟩
  | some (.ok ss), some (.ok vs) =>
    rw [h1, h2] at he
    refine ⟨by simp, by simp, ?_⟩
    intro vs' hv
    cases hv
    refine ⟨⟨ss, rfl, he.1⟩, ?_⟩
    intro j v hv
    have hlt : j < ss.length := by have := (List.getElem?_eq_some_iff.1 hv).1; rw [he.1]; exact this
    exact ⟨ss, ss[j], h1, List.getElem?_eq_getElem hlt, (he.2 j _ v (List.getElem?_eq_getElem hlt) hv).2.1⟩
  | none, some r => rw [h1, h2] at he; cases r <;> exact he.elim
  | some (.ok ss), none => rw [h1, h2] at he; exact he.elim
  | some (.error e), none => rw [h1, h2] at he; exact he.elim
  | some (.ok ss), some (.error e) => rw [h1, h2] at he; exact he.elim
  | some (.error e), some (.ok vs) => rw [h1, h2] at he; exact he.elim

/-- Every state of the evaluation with memory corresponds to a state of the evaluation with values. -/
theorem sim_reach {M : MSem Op V D E W} {g : Graph Op} {feeds : List (Feed V)} {st0 st : MState V D E W} {es0 : EvalState V E W} (h0 : Sim M g st0 es0)
    (h : Relation.ReflTransGen (OneStep M g feeds) st0 st) :
    ∃ es, Relation.ReflTransGen (ValueStep (valueSem M) g feeds) es0 es ∧ Sim M g st es := by
  induction h with
  | refl => exact ⟨es0, .refl, h0⟩
  | @tail st1 st2 _ hs ih =>
    obtain ⟨es, h1, h2⟩ := ih
    obtain ⟨e, rest, h3, h4⟩ := hs
    have hs := sim_step (feeds := feeds) (st := { st1 with stack := rest }) (es := { es with stack := rest })
        ⟨rfl, h2.env, h2.world, h2.log, h2.entries, h2.alloc⟩ e
    rw [h4] at hs
    match h5 : Eval.step (valueSem M) g feeds e { es with stack := rest } with
    | .ok b => rw [h5] at hs; exact ⟨b, h1.tail ⟨e, rest, by rw [← h2.stack, h3], h5⟩, hs⟩
    | .error p => rw [h5] at hs; exact hs.elim

/-- Once computed, an entry of the storage does not change. -/
theorem reach_frame {M : MSem Op V D E W} {g : Graph Op} {feeds : List (Feed V)} {st st' : MState V D E W}
    (h : Relation.ReflTransGen (OneStep M g feeds) st st') :
    ∀ id, st.storage id ≠ none → st'.storage id = st.storage id ∧ ∀ j, st'.heap id j = st.heap id j := by
  induction h with
  | refl => exact fun id _ => ⟨rfl, fun _ => rfl⟩
  | tail _ hs ih =>
    obtain ⟨e, rest, h3, h4⟩ := hs
    intro id hid
    obtain ⟨a1, a2⟩ := ih id hid
    obtain ⟨b1, b2⟩ := step_frame h4 id (by dsimp only; rw [a1]; exact hid)
    exact ⟨b1.trans a1, fun j => (b2 j).trans (a2 j)⟩

/-- `k` iterations of the loop (for examples). -/
def steps (M : MSem Op V D E W) (g : Graph Op) (feeds : List (Feed V)) : Nat → MState V D E W → Option (MState V D E W)
  | 0, st => some st
  | k + 1, st =>
    match st.stack with
    | [] => none
    | e :: rest =>
      match step M g feeds e { st with stack := rest } with
      | .ok st' => steps M g feeds k st'
      | .error _ => none

theorem steps_reach {M : MSem Op V D E W} {g : Graph Op} {feeds : List (Feed V)} (k : Nat) : ∀ {st st' : MState V D E W},
    steps M g feeds k st = some st' → Relation.ReflTransGen (OneStep M g feeds) st st' := by
  induction k with
  | zero => intro st st' h; cases h; exact .refl
  | succ k ih =>
    intro st st' h
    unfold steps at h
    split at h
    · cases h
    · rename_i e rest hst
      split at h
      · rename_i st1 h1
        exact .head ⟨e, rest, hst, h1⟩ (ih h)
      · cases h

/-- In a graph without selectors only first outputs are viewed. -/
theorem alias_first {M : MSem Op V D E W} {g : Graph Op} (hg : ∀ n ∈ g.nodes, ∀ i ∈ n.incoming, i.selector = 0) {a j t s : Nat}
    (h : MayAlias M g a j t s) : s = 0 := by
  induction h with
  | direct h1 h2 _ => exact hg _ (List.mem_of_getElem? h1) _ (List.mem_of_getElem? h2)
  | through _ _ _ _ ih => exact ih

end Mem
end Verif
