import Verif.Lemmas.EvalOrdered

/-! Evaluations in which updates and other ops are executed in a known order: they return, and everything but the updates is computed from the variables at the start. -/

namespace Verif
open Verif.Spec Relation

namespace Eval
open Graph Opt
variable {Op V E W : Type}

/-- The conditions: `L` is the order of execution, `us` are the updates, `sums` are sums of their results `z`, with values in `P`. -/
structure OrderedOk (f : Op → List (OpInput V) → Option (Except E (List V))) (S : Sem Op V E W) (g : Graph Op) (feeds : List (Feed V)) (env : List V)
    (us sums : List Nat) (z : V) (P : V → Prop) (L : List Nat) : Prop where
  nodup : L.Nodup
  order : InDependencyOrder g L
  kinds : ∀ a ∈ L, (Clean g a ∧ ∃ r, Means f S.shapeOf g feeds env a r) ∨ a ∈ us ∨ a ∈ sums
  pure : ∀ a n, a ∈ L → Clean g a → g.nodes[a]? = some n → Computes S n.op (f n.op)
  late : ∀ pre u post a vid, L = pre ++ u :: post → a ∈ post → Clean g a → MayWrite g u vid → ¬ ReadsVar g a vid
  own : ∀ pre u post vid a, u ∈ us → L = pre ++ u :: post → ReadsVar g u vid → a ∈ pre → ¬ MayWrite g a vid
  isOp : ∀ u ∈ us, IsOp g u
  uses : ∀ u ∈ us, ∀ b, Uses g u b → Clean g b
  runs : ∀ u ∈ us, ∀ n, g.nodes[u]? = some n → ∃ xs,
    (∀ cv : Nat → Except E (List V), (∀ b, Uses g u b → Means f S.shapeOf g feeds env b (cv b)) → InputsAre S.shapeOf g feeds env cv n.incoming (.ok xs)) ∧
    ∀ w, ∃ w' ws, S.compute n.op w xs = .done w' ws [z] (.ok ())
  sum : ∀ a ∈ sums, IsOp g a ∧ ∃ n, g.nodes[a]? = some n ∧ (∀ i ∈ n.incoming, i.id ∈ us ∧ i.selector = 0) ∧
    ∀ w, ∃ y, P y ∧ S.compute n.op w (List.replicate n.incoming.length ⟨.nonVariable, z⟩) = .done w [] [y] (.ok ())

theorem execList_has {S : Sem Op V E W} {g : Graph Op} {feeds : List (Feed V)} {s0 s : ExecState V E W} {l : List (Nat × Bool)} (h : ExecList S g feeds s0 l s)
    {b : Nat} (hb : b ∈ l.map Prod.fst) : ∃ r, s.results b = some r := by
  induction h with
  | nil => simp at hb
  | @snoc l s1 e s2 _ h1 ih =>
    rw [List.map_append, List.mem_append] at hb
    have key : b = e.1 ∨ s2.results b = s1.results b := by
      cases h1 with
      | run =>
        simp only
        split
        · exact .inl (by assumption)
        · exact .inr rfl
      | skip =>
        simp only
        split
        · exact .inl (by assumption)
        · exact .inr rfl
    rcases key with rfl | h2
    · cases h1 with
      | run => exact ⟨_, if_pos rfl⟩
      | skip => exact ⟨_, if_pos rfl⟩
    · rw [h2]
      rcases hb with hb | hb
      · exact ih hb
      · simp at hb
        subst hb
        cases h1 with
        | run => exact ⟨_, by rw [← h2]; exact if_pos rfl⟩
        | skip => exact ⟨_, by rw [← h2]; exact if_pos rfl⟩

theorem execOne_results {S : Sem Op V E W} {g : Graph Op} {feeds : List (Feed V)} {s s' : ExecState V E W} {e : Nat × Bool} (h : ExecOne S g feeds s e s')
    {b : Nat} (hb : b ≠ e.1) : s'.results b = s.results b := by
  cases h with
  | run => exact if_neg hb
  | skip => exact if_neg hb

variable {f : Op → List (OpInput V) → Option (Except E (List V))} {S : Sem Op V E W} {g : Graph Op} {feeds : List (Feed V)} {env : List V} {w : W}
  {us sums : List Nat} {z : V} {P : V → Prop} {L : List Nat}

theorem OrderedOk.snapshot (h : OrderedOk f S g feeds env us sums z P L) {l : List (Nat × Bool)} {s : ExecState V E W} (hx : ExecList S g feeds (.start env w) l s)
    {rest : List Nat} (hl : L = l.map Prod.fst ++ rest) {k : Nat} {r : Except E (List V)} (hk : Clean g k) (hr : s.results k = some r) :
    Means f S.shapeOf g feeds env k r := by
  refine execList_clean hx (fun a n ha => h.pure a n (by rw [hl]; simp at ha ⊢; exact .inl ha)) ?_ k r hk hr
  intro pre u post a vid he ha
  exact h.late pre u (post ++ rest) a vid (by rw [hl, he]; simp) (by simp [ha])

/-- The results used by the next op. -/
theorem OrderedOk.ready (h : OrderedOk f S g feeds env us sums z P L) {l : List (Nat × Bool)} {s : ExecState V E W} (hx : ExecList S g feeds (.start env w) l s)
    {x : Nat} {post : List Nat} (hl : L = l.map Prod.fst ++ x :: post) {b : Nat} (hb : Uses g x b) : ∃ r, s.results b = some r :=
  execList_has hx (h.order _ x post hl b hb)

theorem OrderedOk.next_update (h : OrderedOk f S g feeds env us sums z P L) {l : List (Nat × Bool)} {s : ExecState V E W} (hx : ExecList S g feeds (.start env w) l s)
    {x : Nat} {post : List Nat} (hl : L = l.map Prod.fst ++ x :: post) (hu : x ∈ us) :
    ∃ s', ExecOne S g feeds s (x, true) s' ∧ s'.results x = some (.ok [z]) := by
  obtain ⟨n, hn, _⟩ := id (h.isOp x hu)
  obtain ⟨xs, h1, h2⟩ := h.runs x hu n hn
  have hr : ∀ b, Uses g x b → ∃ r, s.results b = some r := fun b => h.ready hx hl
  choose! cv hcv using hr
  have hin := h1 cv fun b hb => h.snapshot hx hl (h.uses x hu b hb) (hcv b hb)
  have hin' := inputsAre_congr (env' := s.env) (fun i hi m vid hm hv => execList_frame hx fun a ha =>
    h.own _ x post vid a hu hl ⟨n, hn, i, hi, m, hm, hv⟩ (List.mem_map.2 ⟨_, ha, rfl⟩)) hin
  obtain ⟨w', ws, h3⟩ := h2 s.world
  exact ⟨_, .run hn (h.isOp x hu) hcv hin' h3 (by simp [outcomeResult]) (applyWrites_envAfter ws s.env), if_pos rfl⟩

theorem OrderedOk.updates (h : OrderedOk f S g feeds env us sums z P L) {l : List (Nat × Bool)} {s : ExecState V E W} (hx : ExecList S g feeds (.start env w) l s)
    {rest : List Nat} (hl : L = l.map Prod.fst ++ rest) : ∀ e ∈ l, e.1 ∈ us → e.2 = true ∧ s.results e.1 = some (.ok [z]) := by
  induction hx generalizing rest with
  | nil => simp
  | @snoc l s1 e s2 hh h1 ih =>
    have hl' : L = l.map Prod.fst ++ e.1 :: rest := by rw [hl]; simp
    intro d hd hu
    by_cases hde : d.1 = e.1
    · obtain ⟨s', h2, h3⟩ := h.next_update hh hl' (hde ▸ hu)
      have hfl : e.2 = true := execOne_flag (a := e.1) (b := e.2) h1 h2
      have h1' : ExecOne S g feeds s1 (e.1, true) s2 := by rw [← hfl]; exact h1
      have hd : d = e := by
        rcases List.mem_append.1 hd with hd | hd
        · exfalso
          have hnd := h.nodup
          rw [hl', List.nodup_append] at hnd
          exact hnd.2.2 d.1 (List.mem_map.2 ⟨_, hd, rfl⟩) e.1 (by simp) hde
        · simpa using hd
      subst hd
      cases execOne_eq h1' h2
      exact ⟨hfl, h3⟩
    · have hdl : d ∈ l := by
        rcases List.mem_append.1 hd with hd | hd
        · exact hd
        · simp at hd; exact absurd (by rw [hd]) hde
      obtain ⟨h2, h3⟩ := ih hl' d hdl hu
      exact ⟨h2, by rw [execOne_results h1 hde]; exact h3⟩

theorem inputsAre_same {shapeOf : V → List Nat} {cv : Nat → Except E (List V)} {z : V} : ∀ {is : List Incoming},
    (∀ i ∈ is, IsOp g i.id ∧ cv i.id = .ok [z] ∧ i.selector = 0) → InputsAre shapeOf g feeds env cv is (.ok (List.replicate is.length ⟨.nonVariable, z⟩))
  | [], _ => .nil
  | i :: is, h => by
    obtain ⟨h1, h2, h3⟩ := h i (by simp)
    exact .cons (.result h1 h2 (by rw [h3]; rfl)) (inputsAre_same fun j hj => h j (by simp [hj]))

theorem OrderedOk.next_sum (h : OrderedOk f S g feeds env us sums z P L) {l : List (Nat × Bool)} {s : ExecState V E W} (hx : ExecList S g feeds (.start env w) l s)
    {x : Nat} {post : List Nat} (hl : L = l.map Prod.fst ++ x :: post) (hu : x ∈ sums) :
    ∃ s' y, ExecOne S g feeds s (x, true) s' ∧ P y ∧ s'.results x = some (.ok [y]) := by
  obtain ⟨hop, n, hn, hin, hc⟩ := h.sum x hu
  obtain ⟨y, hy, h3⟩ := hc s.world
  have hcv : ∀ b, Uses g x b → s.results b = some (.ok [z]) := by
    rintro b ⟨⟨n', hn', i, hi, rfl⟩, ho⟩
    rw [hn] at hn'; cases hn'
    have hm := h.order _ x post hl i.id ⟨⟨n, hn, i, hi, rfl⟩, ho⟩
    obtain ⟨d, hd, hde⟩ := List.mem_map.1 hm
    have := (h.updates hx hl d hd (by rw [hde]; exact (hin i hi).1)).2
    rwa [hde] at this
  exact ⟨_, y, .run hn hop (cv := fun _ => .ok [z]) hcv (inputsAre_same fun i hi => ⟨h.isOp _ (hin i hi).1, rfl, (hin i hi).2⟩) h3 (by simp [outcomeResult])
    (applyWrites_envAfter [] s.env), hy, if_pos rfl⟩

theorem OrderedOk.summed (h : OrderedOk f S g feeds env us sums z P L) {l : List (Nat × Bool)} {s : ExecState V E W} (hx : ExecList S g feeds (.start env w) l s)
    {rest : List Nat} (hl : L = l.map Prod.fst ++ rest) : ∀ e ∈ l, e.1 ∈ sums → ∃ y, P y ∧ s.results e.1 = some (.ok [y]) := by
  induction hx generalizing rest with
  | nil => simp
  | @snoc l s1 e s2 hh h1 ih =>
    have hl' : L = l.map Prod.fst ++ e.1 :: rest := by rw [hl]; simp
    intro d hd hu
    by_cases hde : d.1 = e.1
    · obtain ⟨s', y, h2, hy, h3⟩ := h.next_sum hh hl' (hde ▸ hu)
      have hfl : e.2 = true := execOne_flag (a := e.1) (b := e.2) h1 h2
      have h1' : ExecOne S g feeds s1 (e.1, true) s2 := by rw [← hfl]; exact h1
      cases execOne_eq h1' h2
      exact ⟨y, hy, by rw [hde]; exact h3⟩
    · have hdl : d ∈ l := by
        rcases List.mem_append.1 hd with hd | hd
        · exact hd
        · simp at hd; exact absurd (by rw [hd]) hde
      obtain ⟨y, hy, h3⟩ := ih hl' d hdl hu
      exact ⟨y, hy, by rw [execOne_results h1 hde]; exact h3⟩

/-- Every op can be executed after the ops before it. -/
theorem OrderedOk.next (h : OrderedOk f S g feeds env us sums z P L) {l : List (Nat × Bool)} {s : ExecState V E W} (hx : ExecList S g feeds (.start env w) l s)
    {x : Nat} {post : List Nat} (hl : L = l.map Prod.fst ++ x :: post) : ∃ b s', ExecOne S g feeds s (x, b) s' := by
  have hxL : x ∈ L := by rw [hl]; simp
  rcases h.kinds x hxL with ⟨hc, r, hr⟩ | hu | hu
  · have hread : ∀ {n : Node Op}, g.nodes[x]? = some n → ∀ i ∈ n.incoming, ∀ m vid, g.nodes[i.id]? = some m → m.variableId = some vid → s.env[vid]? = env[vid]? := by
      intro n hn i hi m vid hm hv
      refine execList_frame hx fun a ha hmw => ?_
      obtain ⟨p1, p2, hp⟩ := List.append_of_mem ha
      exact h.late (p1.map Prod.fst) a (p2.map Prod.fst ++ x :: post) x vid (by rw [hl, hp]; simp) (by simp) hc hmw ⟨n, hn, i, hi, m, hm, hv⟩
    have hdown : ∀ b, Uses g x b → Clean g b := fun b hb c vid hcb => hc c vid (.head hb hcb)
    have hcv : ∀ {cv : Nat → Except E (List V)}, (∀ b, Uses g x b → Means f S.shapeOf g feeds env b (cv b)) → ∀ b, Uses g x b → s.results b = some (cv b) := by
      intro cv hb b hu
      obtain ⟨r', hr'⟩ := h.ready hx hl hu
      rw [hr', means_unique (h.snapshot hx hl (hdown b hu) hr') (hb b hu)]
    cases hr with
    | @run _ n _ cv xs hn ho hb hin hf =>
      have hp := h.pure x n hxL hc hn s.world xs
      rw [hf] at hp
      cases hcc : S.compute n.op s.world xs with
      | panic => rw [hcc] at hp; simp [outcomeResult] at hp
      | done w1 ws ys status =>
        rw [hcc] at hp
        exact ⟨_, _, .run hn ho (hcv hb) (inputsAre_congr (hread hn) hin) hcc hp (applyWrites_envAfter ws s.env)⟩
    | fail hn ho hb hin => exact ⟨_, _, .skip hn ho (hcv hb) (inputsAre_congr (hread hn) hin)⟩
  · obtain ⟨s', h1, _⟩ := h.next_update hx hl hu
    exact ⟨_, _, h1⟩
  · obtain ⟨s', y, h1, _⟩ := h.next_sum hx hl hu
    exact ⟨_, _, h1⟩

/-- The evaluation returns. -/
theorem ordered_total (hw : WF g) (hac : Acyclic g) {targets : List Nat} (ht : ∀ t ∈ targets, t < g.nodes.length) (hnd : targets.Nodup)
    (hL : Visits g [] targets.reverse L) (h : OrderedOk f S g feeds env us sums z P L)
    (htm : ∀ t ∈ targets, IsOp g t ∧ (t ∈ us ∨ t ∈ sums ∨ Clean g t ∧ ∃ y ys, Means f S.shapeOf g feeds env t (.ok (y :: ys))))
    {fuel : Nat} (hfuel : 2 * (targets.length + edgeCount g) ≤ fuel) (w : W) : ∃ res, eval S g fuel targets feeds env w = some (.ok res) := by
  refine eval_ordered hw hac ht (fun pre t mid post e => by rw [e] at hnd; simp [List.nodup_append] at hnd) hL ?_ ?_ hfuel
  · intro pre x post l s hl hpre hx
    subst hpre
    exact h.next hx hl
  · intro l s hl hx t ht
    obtain ⟨ho, hk⟩ := htm t ht
    have htl : t ∈ l.map Prod.fst := by rw [hl]; exact (hL.mem_iff t).2 ⟨t, List.mem_reverse.2 ht, ho, .refl⟩
    have hl' : L = l.map Prod.fst ++ [] := by rw [hl]; simp
    obtain ⟨d, hd, rfl⟩ := List.mem_map.1 htl
    rcases hk with hk | hk | ⟨hk, y, ys, hm⟩
    · exact ⟨_, .result ho (h.updates hx hl' d hd hk).2 rfl⟩
    · obtain ⟨y, _, hy⟩ := h.summed hx hl' d hd hk
      exact ⟨_, .result ho hy rfl⟩
    · obtain ⟨r, hr⟩ := execList_has hx htl
      rw [means_unique (h.snapshot hx hl' hk hr) hm] at hr
      exact ⟨_, .result ho hr rfl⟩

end Eval
end Verif
