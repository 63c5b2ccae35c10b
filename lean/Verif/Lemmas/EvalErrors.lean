import Verif.Lemmas.EvalPure

/-! Propagation of errors, and reading of inputs, in a sequential execution. -/

namespace Verif
open Spec Relation
variable {Op V E W : Type}

namespace Eval
open Graph

theorem forall₂_get {α β : Type} {R : α → β → Prop} {as : List α} {bs : List β} (h : List.Forall₂ R as bs) :
    bs.length = as.length ∧ ∀ (k : Nat) (a : α), as[k]? = some a → ∃ b, bs[k]? = some b ∧ R a b := by
  induction h with
  | nil => exact ⟨rfl, by simp⟩
  | cons h _ ih =>
    refine ⟨by simp [ih.1], ?_⟩
    intro k a hk
    cases k with
    | zero => simp at hk; subst hk; exact ⟨_, by simp, h⟩
    | succ k => simpa using ih.2 k a (by simpa using hk)

theorem inputsAre_ok_all {shapeOf : V → List Nat} {g : Graph Op} {feeds : List (Feed V)} {env : List V}
    {cv : Nat → Except E (List V)} : ∀ {is : List Incoming} {xs : List (OpInput V)},
    InputsAre shapeOf g feeds env cv is (.ok xs) → xs.length = is.length ∧
      ∀ (j : Nat) (i : Incoming), is[j]? = some i → ∃ x, xs[j]? = some x ∧ InputIs shapeOf g feeds env cv i (.ok x)
  | [], xs, h => by cases h; exact ⟨rfl, by simp⟩
  | i :: is, xs, h => by
    cases h with
    | cons a b =>
      obtain ⟨h1, h2⟩ := inputsAre_ok_all b
      refine ⟨by simp [h1], ?_⟩
      intro j k hj
      cases j with
      | zero => simp at hj; subst hj; exact ⟨_, by simp, a⟩
      | succ j => simpa using h2 j k (by simpa using hj)

theorem inputIs_ok_op {shapeOf : V → List Nat} {g : Graph Op} {feeds : List (Feed V)} {env : List V}
    {cv : Nat → Except E (List V)} {i : Incoming} {x : OpInput V} (h : InputIs shapeOf g feeds env cv i (.ok x)) (ho : IsOp g i.id) :
    ∃ ys, cv i.id = .ok ys := by
  obtain ⟨m, hm, h1, h2⟩ := ho
  cases h with
  | placeholder hn hf =>
    obtain ⟨nm, d, hp, _⟩ := hf
    rw [hm] at hn; cases hn; rw [h1] at hp; cases hp
  | variable_ hn _ hv => rw [hm] at hn; cases hn; rw [h2] at hv; cases hv
  | result _ h => exact ⟨_, h⟩

theorem inputsAre_error {shapeOf : V → List Nat} {g : Graph Op} {feeds : List (Feed V)} {env : List V}
    {cv : Nat → Except E (List V)} {e : E} : ∀ {is : List Incoming}, InputsAre shapeOf g feeds env cv is (.error e) →
      ∃ pre i post, is = pre ++ i :: post ∧ IsOp g i.id ∧ cv i.id = .error e ∧
        ∀ j ∈ pre, IsOp g j.id → ∃ ys, cv j.id = .ok ys
  | [], h => by cases h
  | i :: is, h => by
    cases h with
    | first a =>
      cases a with
      | failed ho h1 => exact ⟨[], i, is, rfl, ho, h1, by simp⟩
    | later a b =>
      obtain ⟨pre, k, post, rfl, h1, h2, h3⟩ := inputsAre_error b
      refine ⟨i :: pre, k, post, rfl, h1, h2, ?_⟩
      intro j hj ho
      rcases List.mem_cons.1 hj with rfl | hj
      · exact inputIs_ok_op a ho
      · exact h3 j hj ho

/-- Splitting an execution. -/
theorem execList_append {S : Sem Op V E W} {g : Graph Op} {feeds : List (Feed V)} {s s' : ExecState V E W} :
    ∀ {b a : List (Nat × Bool)}, ExecList S g feeds s (a ++ b) s' →
      ∃ s1, ExecList S g feeds s a s1 ∧ ExecList S g feeds s1 b s' := by
  intro b
  induction b using List.reverseRecOn generalizing s' with
  | nil => intro a h; exact ⟨s', by simpa using h, .nil⟩
  | append_singleton b x ih =>
    intro a h
    rw [← List.append_assoc] at h
    generalize hl : a ++ b ++ [x] = l at h
    cases h with
    | nil => simp at hl
    | snoc h1 h2 =>
      obtain ⟨h3, h4⟩ := List.append_inj' hl rfl
      subst h3; cases h4
      obtain ⟨s1, h5, h6⟩ := ih h1
      exact ⟨s1, h5, .snoc h6 h2⟩

theorem execList_cons {S : Sem Op V E W} {g : Graph Op} {feeds : List (Feed V)} {s s' : ExecState V E W} {e : Nat × Bool}
    {l : List (Nat × Bool)} (h : ExecList S g feeds s (e :: l) s') :
    ∃ s1, ExecOne S g feeds s e s1 ∧ ExecList S g feeds s1 l s' := by
  obtain ⟨s1, h1, h2⟩ := execList_append (a := [e]) (b := l) h
  generalize hl : [e] = l' at h1
  cases h1 with
  | nil => simp at hl
  | snoc h3 h4 =>
    rename_i l0 s0 e0
    cases l0 with
    | cons a t => simp at hl
    | nil =>
      simp at hl; subst hl
      generalize hn : ([] : List (Nat × Bool)) = l2 at h3
      cases h3 with
      | nil => exact ⟨s1, h4, h2⟩
      | snoc => simp at hn

/-- Results, once stored, stay. -/
theorem execList_keep {S : Sem Op V E W} {g : Graph Op} {feeds : List (Feed V)} {s s' : ExecState V E W}
    {l : List (Nat × Bool)} (h : ExecList S g feeds s l s') {k : Nat} (hk : k ∉ l.map Prod.fst) : s'.results k = s.results k := by
  induction h with
  | nil => rfl
  | @snoc l s1 e s2 _ h1 ih =>
    have h2 : k ≠ e.1 ∧ k ∉ l.map Prod.fst := by
      constructor
      · rintro rfl; exact hk (by simp)
      · intro hm; exact hk (by simp only [List.map_append, List.mem_append]; exact .inl hm)
    rw [(ExecOne.node h1).1 k h2.1, ih h2.2]

/-- What is known at the end about each executed op. -/
theorem execList_final {S : Sem Op V E W} {g : Graph Op} {feeds : List (Feed V)} {env : List V} {w : W} {s' : ExecState V E W}
    {l : List (Nat × Bool)} (h : ExecList S g feeds (.start env w) l s') (hnd : (l.map Prod.fst).Nodup)
    {a : Nat} {b : Bool} (ha : (a, b) ∈ l) :
    ∃ n cv, g.nodes[a]? = some n ∧ (∀ c, Uses g a c → s'.results c = some (cv c)) ∧
      (b = true → ∃ env1 xs r, InputsAre S.shapeOf g feeds env1 cv n.incoming (.ok xs) ∧ s'.results a = some r ∧
          CallResult S g feeds env w l a r) ∧
      (b = false → ∃ env1 e, InputsAre S.shapeOf g feeds env1 cv n.incoming (.error e) ∧ s'.results a = some (.error e)) := by
  obtain ⟨pre, post, rfl⟩ := List.append_of_mem ha
  obtain ⟨s1, h1, h2⟩ := execList_append h
  obtain ⟨s2, h3, h4⟩ := execList_cons h2
  simp only [List.map_append, List.map_cons, List.nodup_append, List.nodup_cons] at hnd
  have hapost : a ∉ post.map Prod.fst := hnd.2.1.1
  have hkeep : ∀ c, (s1.results c).isSome → s'.results c = s1.results c := by
    intro c hc
    have hcm := (execList_results h1 c).1 hc
    have hne : c ≠ a := hnd.2.2 c hcm a (by simp)
    have hcp : c ∉ post.map Prod.fst := fun hm => hnd.2.2 c hcm c (by simp only [List.mem_cons]; exact .inr hm) rfl
    rw [execList_keep h4 hcp]
    exact (ExecOne.node h3).1 c hne
  have hres : s'.results a = s2.results a := execList_keep h4 hapost
  have h3' := h3
  cases h3 with
  | @run id n cv xs w1 ws ys status r env' hn ho hcv hin hc hr he =>
    refine ⟨n, cv, hn, fun c hcu => by rw [hkeep c (by simp [hcv c hcu])]; exact hcv c hcu, ?_, by simp⟩
    intro _
    exact ⟨s1.env, xs, r, hin, by rw [hres]; simp, pre, post, s1, _, rfl, h1, h3', by simp⟩
  | @skip id n cv e hn ho hcv hin =>
    refine ⟨n, cv, hn, fun c hcu => by rw [hkeep c (by simp [hcv c hcu])]; exact hcv c hcu, by simp, ?_⟩
    intro _
    exact ⟨s1.env, e, hin, by rw [hres]; simp⟩

/-- Execution is deterministic. -/
theorem execOne_det {S : Sem Op V E W} {g : Graph Op} {feeds : List (Feed V)} {s : ExecState V E W} {e : Nat × Bool}
    {s1 s2 : ExecState V E W} (h1 : ExecOne S g feeds s e s1) (h2 : ExecOne S g feeds s e s2) :
    s1.results = s2.results ∧ s1.env = s2.env ∧ s1.world = s2.world := by
  have hcvs : ∀ {a : Nat} {cv cv' : Nat → Except E (List V)} {n : Node Op}, g.nodes[a]? = some n →
      (∀ b, Uses g a b → s.results b = some (cv b)) → (∀ b, Uses g a b → s.results b = some (cv' b)) →
      ∀ i ∈ n.incoming, IsOp g i.id → cv i.id = cv' i.id := by
    intro a cv cv' n hn ha hb i hi ho
    have h1 := ha i.id ⟨⟨n, hn, i, hi, rfl⟩, ho⟩
    have h2 := hb i.id ⟨⟨n, hn, i, hi, rfl⟩, ho⟩
    rw [h1] at h2; exact Option.some.inj h2
  cases h1 with
  | run hn ho hcv hin hc hr he =>
    cases h2 with
    | run hn' _ hcv' hin' hc' hr' he' =>
      rw [hn] at hn'; cases hn'
      cases inputsAre_unique (hcvs hn hcv hcv') hin hin'
      rw [hc] at hc'; cases hc'
      rw [hr] at hr'; cases hr'
      refine ⟨rfl, ?_, rfl⟩
      simp only
      apply List.ext_getElem?
      intro vid
      by_cases hv : vid < s.env.length
      · rcases he.2 vid hv with ⟨pre, k, v, post, e1, h1, h2, h3⟩ | ⟨h1, h2⟩
        · rcases he'.2 vid hv with ⟨pre', k', v', post', e1', h1', h2', h3'⟩ | ⟨h1', h2'⟩
          · rw [h3, h3']
            have : pre ++ (k, v) :: post = pre' ++ (k', v') :: post' := e1.symm.trans e1'
            rcases List.append_eq_append_iff.1 this with ⟨a, rfl, h⟩ | ⟨a, rfl, h⟩
            · cases a with
              | nil => simp at h; rw [h.1.2]
              | cons x a =>
                simp at h
                exact absurd h1' (h2 (k', v') (by simp [h.2]))
            · cases a with
              | nil => simp at h; rw [h.1.2]
              | cons x a =>
                simp at h
                exact absurd h1 (h2' (k, v) (by simp [h.2]))
          · exact absurd h1 (h1' (k, v) (by simp [e1]))
        · rcases he'.2 vid hv with ⟨pre', k', v', post', e1', h1', h2', h3'⟩ | ⟨h1', h2'⟩
          · exact absurd h1' (h1 (k', v') (by simp [e1']))
          · rw [h2, h2']
      · have := he.1; have := he'.1
        rw [List.getElem?_eq_none (by omega), List.getElem?_eq_none (by omega)]
  | skip hn ho hcv hin =>
    cases h2 with
    | skip hn' _ hcv' hin' =>
      rw [hn] at hn'; cases hn'
      cases inputsAre_unique (hcvs hn hcv hcv') hin hin'
      exact ⟨rfl, rfl, rfl⟩

theorem execOne_eq {S : Sem Op V E W} {g : Graph Op} {feeds : List (Feed V)} {s : ExecState V E W} {e : Nat × Bool}
    {s1 s2 : ExecState V E W} (h1 : ExecOne S g feeds s e s1) (h2 : ExecOne S g feeds s e s2) : s1 = s2 := by
  obtain ⟨a, b, c⟩ := execOne_det h1 h2
  cases s1; cases s2; simp at a b c; simp [a, b, c]

theorem execList_det {S : Sem Op V E W} {g : Graph Op} {feeds : List (Feed V)} {s s1 s2 : ExecState V E W} {l : List (Nat × Bool)}
    (h1 : ExecList S g feeds s l s1) (h2 : ExecList S g feeds s l s2) : s1 = s2 := by
  induction h1 generalizing s2 with
  | nil =>
    generalize hn : ([] : List (Nat × Bool)) = l2 at h2
    cases h2 with
    | nil => rfl
    | snoc => simp at hn
  | @snoc l sa e sb _ h3 ih =>
    generalize hn : l ++ [e] = l2 at h2
    cases h2 with
    | nil => simp at hn
    | snoc h4 h5 =>
      obtain ⟨h6, h7⟩ := List.append_inj' hn rfl
      subst h6; cases h7
      rw [ih h4] at h3
      exact execOne_eq h3 h5

/-- In a log without repetitions a call has one result: the final one. -/
theorem callResult_iff {S : Sem Op V E W} {g : Graph Op} {feeds : List (Feed V)} {env : List V} {w : W} {s' : ExecState V E W}
    {l : List (Nat × Bool)} (h : ExecList S g feeds (.start env w) l s') (hnd : (l.map Prod.fst).Nodup)
    {a : Nat} {r : Except E (List V)} : CallResult S g feeds env w l a r ↔ (a, true) ∈ l ∧ s'.results a = some r := by
  constructor
  · rintro ⟨pre, post, s1, s2, rfl, h1, h2, h3⟩
    refine ⟨by simp, ?_⟩
    obtain ⟨s1', h4, h5⟩ := execList_append h
    obtain ⟨s2', h6, h7⟩ := execList_cons h5
    cases execList_det h1 h4
    cases execOne_eq h2 h6
    simp only [List.map_append, List.map_cons, List.nodup_append, List.nodup_cons] at hnd
    rw [execList_keep h7 hnd.2.1.1, h3]
  · rintro ⟨h1, h2⟩
    obtain ⟨n, cv, hn, _, hr, _⟩ := execList_final h hnd h1
    obtain ⟨_, _, r', _, h4, h5⟩ := hr rfl
    rw [h2] at h4; cases h4; exact h5

/-- Each error stems from a call that returned it. -/
theorem error_origin {S : Sem Op V E W} {g : Graph Op} {feeds : List (Feed V)} {env : List V} {w : W} {s' : ExecState V E W}
    {l : List (Nat × Bool)} (h : ExecList S g feeds (.start env w) l s') {a : Nat} {e : E} (he : s'.results a = some (.error e)) :
    ∃ b, ReflTransGen (Uses g) a b ∧ CallResult S g feeds env w l b (.error e) := by
  induction h generalizing a with
  | nil => simp [ExecState.start] at he
  | @snoc l s1 x s2 hh h1 ih =>
    have lift : ∀ {b}, CallResult S g feeds env w l b (.error e) → CallResult S g feeds env w (l ++ [x]) b (.error e) := by
      rintro b ⟨pre, post, t1, t2, rfl, h2⟩
      exact ⟨pre, post ++ [x], t1, t2, by simp, h2⟩
    by_cases hk : a = x.1
    · subst hk
      have h1' := h1
      cases h1 with
      | run hn ho hcv hin hc hr henv =>
        exact ⟨_, .refl, l, [], s1, _, rfl, hh, h1', he⟩
      | skip hn ho hcv hin =>
        simp only [if_true] at he
        cases he
        obtain ⟨pre, i, post, hi, hio, hce, _⟩ := inputsAre_error hin
        have hu : Uses g _ i.id := ⟨⟨_, hn, i, by simp [hi], rfl⟩, hio⟩
        have := hcv i.id hu
        rw [hce] at this
        obtain ⟨b, hb1, hb2⟩ := ih this
        exact ⟨b, .head hu hb1, lift hb2⟩
    · rw [(ExecOne.node h1).1 a hk] at he
      obtain ⟨b, hb1, hb2⟩ := ih he
      exact ⟨b, hb1, lift hb2⟩

/-- A tensor that uses a failed one fails. -/
theorem error_spreads {S : Sem Op V E W} {g : Graph Op} {feeds : List (Feed V)} {env : List V} {w : W} {s' : ExecState V E W}
    {l : List (Nat × Bool)} (h : ExecList S g feeds (.start env w) l s') (hnd : (l.map Prod.fst).Nodup)
    {a b : Nat} (ha : a ∈ l.map Prod.fst) (hu : Uses g a b) {e : E} (he : s'.results b = some (.error e)) :
    (a, false) ∈ l ∧ ∃ e', s'.results a = some (.error e') := by
  obtain ⟨⟨a', flag⟩, hm, rfl⟩ := List.mem_map.1 ha
  obtain ⟨n, cv, hn, hcv, ht, hf⟩ := execList_final h hnd hm
  cases flag with
  | false =>
    obtain ⟨_, e', _, h1⟩ := hf rfl
    exact ⟨hm, e', h1⟩
  | true =>
    exfalso
    obtain ⟨_, xs, r, hin, _⟩ := ht rfl
    obtain ⟨⟨m, hm', i, hi, rfl⟩, ho⟩ := id hu
    rw [hn] at hm'; cases hm'
    obtain ⟨j, hj⟩ := List.getElem?_of_mem hi
    obtain ⟨x, _, hx⟩ := (inputsAre_ok_all hin).2 j i hj
    obtain ⟨ys, hys⟩ := inputIs_ok_op hx ho
    have := hcv _ hu
    rw [he, hys] at this
    cases this

end Eval
end Verif
