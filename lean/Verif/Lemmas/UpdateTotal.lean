import Verif.Lemmas.EvalPure
import Verif.Lemmas.OptimizerRuns

/-! When an evaluation of update ops returns: every gradient has a meaning at the start, reads of updated variables come before the updates, and the
update ops accept the values which their inputs have at the start. -/

namespace Verif
open Spec Relation
variable {Op V E W : Type}

namespace Eval
open Graph Opt

/-- The conditions for `updates_total`. -/
structure StepOk (f : Op → List (OpInput V) → Option (Except E (List V))) (S : Sem Op V E W) (g : Graph Op) (feeds : List (Feed V)) (env : List V)
    (us : List Nat) : Prop where
  isOp : ∀ u ∈ us, IsOp g u
  pure : ∀ u ∈ us, ∀ a n, TransGen (Uses g) u a → g.nodes[a]? = some n → Computes S n.op (f n.op)
  ro : ∀ u ∈ us, ∀ a vid, TransGen (Uses g) u a → ¬ MayWrite g a vid
  apart : ∀ u ∈ us, ∀ u' ∈ us, ¬ TransGen (Uses g) u u'
  ind : ∀ u ∈ us, ∀ u' ∈ us, ∀ a vid, MayWrite g u vid → TransGen (Uses g) u' a → ReadsVar g a vid → TransGen (Uses g) u a
  own : ∀ u ∈ us, ∀ u' ∈ us, ∀ vid, ReadsVar g u vid → u' ≠ u → ¬ MayWrite g u' vid
  means : ∀ u ∈ us, ∀ b, Uses g u b → ∃ r, Means f S.shapeOf g feeds env b r
  runs : ∀ u ∈ us, ∀ n, g.nodes[u]? = some n → ∃ xs,
    (∀ cv : Nat → Except E (List V), (∀ b, Uses g u b → Means f S.shapeOf g feeds env b (cv b)) → InputsAre S.shapeOf g feeds env cv n.incoming (.ok xs)) ∧
    ∀ w, ∃ w' ws y ys, S.compute n.op w xs = .done w' ws (y :: ys) (.ok ())

variable {f : Op → List (OpInput V) → Option (Except E (List V))} {S : Sem Op V E W} {g : Graph Op} {feeds : List (Feed V)} {env : List V} {w : W}
  {us : List Nat}

theorem StepOk.below (_h : StepOk f S g feeds env us) {a : Nat} (ha : Needed g us a) : a ∈ us ∨ ∃ u ∈ us, TransGen (Uses g) u a := by
  obtain ⟨t, h1, _, h2⟩ := ha
  rcases ReflTransGen.cases_head h2 with rfl | ⟨c, h3, h4⟩
  · exact .inl h1
  · exact .inr ⟨t, h1, TransGen.head' h3 h4⟩

theorem StepOk.uses (h : StepOk f S g feeds env us) {a b : Nat} (ha : Needed g us a) (hab : Uses g a b) : b ∉ us := by
  intro hb
  rcases h.below ha with h1 | ⟨u, h1, h2⟩
  · exact h.apart a h1 b hb (.single hab)
  · exact h.apart u h1 b hb (h2.tail hab)

/-- The results of the gradient ops are their meanings at the start. -/
theorem StepOk.snapshot (h : StepOk f S g feeds env us) {l : List (Nat × Bool)} {s : ExecState V E W}
    (hx : ExecList S g feeds (.start env w) l s) (hl : ∀ e ∈ l, Needed g us e.1) (hnd : (l.map Prod.fst).Nodup)
    (hdo : InDependencyOrder g (l.map Prod.fst)) {k : Nat} {r : Except E (List V)} (hk : k ∉ us) (hr : s.results k = some r) :
    Means f S.shapeOf g feeds env k r := by
  refine execList_snapshot (f := f) (N := Needed g us) (Wr := fun a => a ∈ us) ?_ (fun a b => h.uses) ?_ hx hl hnd hdo k r hk hr
  · intro a n ha hna hn
    rcases h.below ha with h1 | ⟨u', h1, h2⟩
    · exact absurd h1 hna
    · exact h.pure u' h1 a n h2 hn
  · intro a v vid ha hna hr hv hm
    rcases h.below ha with h1 | ⟨u', h1, h2⟩
    · exact absurd h1 hna
    · rcases h.below hv with h3 | ⟨u'', h3, h4⟩
      · exact h.ind v h3 u' h1 a vid hm h2 hr
      · exact absurd hm (h.ro u'' h3 v vid h4)

/-- What the next op reads of the variables has not been written before. -/
theorem StepOk.fresh (h : StepOk f S g feeds env us) {l : List (Nat × Bool)} {s : ExecState V E W}
    (hx : ExecList S g feeds (.start env w) l s) (hl : ∀ e ∈ l, Needed g us e.1)
    (hdo : InDependencyOrder g (l.map Prod.fst)) {k vid : Nat} (hk : Needed g us k) (hkl : k ∉ l.map Prod.fst) (hr : ReadsVar g k vid) :
    s.env[vid]? = env[vid]? := by
  refine execList_frame hx fun a ha hm => ?_
  have hal : a ∈ l.map Prod.fst := List.mem_map.2 ⟨_, ha, rfl⟩
  rcases h.below (hl _ ha) with h1 | ⟨u, h1, h2⟩
  · rcases h.below hk with h3 | ⟨u', h3, h4⟩
    · exact h.own k h3 a h1 vid hr (fun e => hkl (e ▸ hal)) hm
    · exact hkl (inDependencyOrder_closed hdo hal (h.ind a h1 u' h3 k vid hm h4 hr))
  · exact h.ro u h1 a vid h2 hm

theorem StepOk.allMeans (h : StepOk f S g feeds env us) {a : Nat} (ha : Needed g us a) (hn : a ∉ us) : ∃ r, Means f S.shapeOf g feeds env a r := by
  rcases h.below ha with h1 | ⟨u, h1, h2⟩
  · exact absurd h1 hn
  · obtain ⟨c, h3, h4⟩ := TransGen.head'_iff.1 h2
    obtain ⟨r, h5⟩ := h.means u h1 c h3
    exact means_below h5 h4

theorem order_of_inv {st : EvalState V E W} (hi : Inv g us st) : InDependencyOrder g (st.log.reverse.map Prod.fst) := by
  rw [List.map_reverse]; exact topoLog_order hi.topo

theorem step_updates_total (hw : WF g) (h : StepOk f S g feeds env us) {st : EvalState V E W} {e : Nat × Bool} {rest : List (Nat × Bool)}
    (hstk : st.stack = e :: rest) (hi : Inv g us st) (hx : ExecList S g feeds (.start env w) st.log.reverse (toExec st)) :
    ∃ st', step S g feeds e { st with stack := rest } = .ok st' := by
  obtain ⟨id, b⟩ := e
  have hid := hi.stackNeeded (id, b) (by simp [hstk])
  obtain ⟨n, hn⟩ : ∃ n, g.nodes[id]? = some n := ⟨_, List.getElem?_eq_getElem hid.1⟩
  have hpend := hi.pending
  rw [hstk] at hpend
  simp only [step, access_ok.2 hn]
  cases b with
  | false =>
    obtain ⟨cs, hcs⟩ := childrenToPush_total (s := st.storage) (is := n.incoming) (hw.closed _ _ hn)
    exact ⟨_, by simp only [bind, Except.bind, hcs]; rfl⟩
  | true =>
    show ∃ st', visit S g feeds n id { st with stack := rest } = .ok st'
    unfold visit
    split
    · exact ⟨_, rfl⟩
    · rename_i hwn
      have hop : IsOp g id := by
        by_cases hop : IsOp g id
        · exact hop
        · exact absurd ((wouldNotVisit_iff hn st.storage).2 (.inl hop)) hwn
      have hnone : id ∉ st.log.reverse.map Prod.fst := by
        intro hm
        rw [List.map_reverse, List.mem_reverse] at hm
        exact hwn ((wouldNotVisit_iff hn st.storage).2 (.inr ((hi.stored id).2 hm)))
      have hneed := hid.2 hop
      have hl := inv_log_needed hi
      have hnd : (st.log.reverse.map Prod.fst).Nodup := by rw [List.map_reverse, List.nodup_reverse]; exact hi.nodup
      have hdo := order_of_inv hi
      have hfresh : ∀ i ∈ n.incoming, ∀ m vid, g.nodes[i.id]? = some m → m.variableId = some vid → st.env[vid]? = env[vid]? :=
        fun i hii m vid hm hv => h.fresh hx hl hdo hneed hnone ⟨n, hn, i, hii, m, hm, hv⟩
      -- the stored results are the ones used by the meaning
      have hcv : ∀ {cv : Nat → Except E (List V)}, (∀ b, Uses g id b → Means f S.shapeOf g feeds env b (cv b)) →
          ∀ i ∈ n.incoming, IsOp g i.id → st.storage i.id = some (cv i.id) := by
        intro cv hb i hii ho
        have hu : Uses g id i.id := ⟨⟨n, hn, i, hii, rfl⟩, ho⟩
        have hs : (st.storage i.id).isSome = true := by
          rcases hpend.1 rfl i.id hu with h1 | h1
          · exact h1
          · simp at h1
        obtain ⟨r', hr'⟩ := Option.isSome_iff_exists.1 hs
        rw [hr', means_unique (h.snapshot hx hl hnd hdo (h.uses hneed hu) hr') (hb _ hu)]
      by_cases hus : id ∈ us
      · obtain ⟨xs, h1, h2⟩ := h.runs id hus n hn
        have hm := h.means id hus
        choose! cv' hcv' using hm
        have := (gather_ok (S := S) (s := st.storage) hw (hcv (cv := cv') hcv')).2 (inputsAre_congr hfresh (h1 cv' hcv'))
        simp only [this, bind, Except.bind]
        obtain ⟨w', ws, y, ys, h3⟩ := h2 st.world
        simp only [h3]
        simp
      · obtain ⟨r, hr⟩ := h.allMeans hneed hus
        have hpure : Computes S n.op (f n.op) := by
          rcases h.below hneed with h1 | ⟨u, h1, h2⟩
          · exact absurd h1 hus
          · exact h.pure u h1 id n h2 hn
        cases hr with
        | @run _ _ _ _ xs hn' _ hb hin hf =>
          rw [hn] at hn'; cases hn'
          have := (gather_ok (S := S) (s := st.storage) hw (hcv hb)).2 (inputsAre_congr hfresh hin)
          simp only [this, bind, Except.bind]
          have hc := hpure st.world xs
          rw [hf] at hc
          cases hcc : S.compute n.op st.world xs with
          | panic => rw [hcc] at hc; simp [outcomeResult] at hc
          | done w1 ws ys status =>
            simp only
            split
            · rename_i hd
              rw [hcc] at hc
              simp at hd
              simp [outcomeResult, hd] at hc
            · exact ⟨_, rfl⟩
        | fail hn' _ hb hin =>
          rw [hn] at hn'; cases hn'
          have := (gather_ok (S := S) (s := st.storage) hw (hcv hb)).2 (inputsAre_congr hfresh hin)
          simp only [this, bind, Except.bind]
          exact ⟨_, rfl⟩

/-- The result of an update op is a success. -/
theorem StepOk.updated (h : StepOk f S g feeds env us) {l : List (Nat × Bool)} {s : ExecState V E W}
    (hx : ExecList S g feeds (.start env w) l s) (hl : ∀ e ∈ l, Needed g us e.1) (hnd : (l.map Prod.fst).Nodup)
    (hdo : InDependencyOrder g (l.map Prod.fst)) {k : Nat} {r : Except E (List V)} (hk : k ∈ us) (hr : s.results k = some r) :
    ∃ y ys, r = .ok (y :: ys) := by
  induction hx with
  | nil => simp [ExecState.start] at hr
  | @snoc l s1 e s2 hh h1 ih =>
    rw [List.map_append] at hnd hdo
    have hl' : ∀ e ∈ l, Needed g us e.1 := fun e he => hl e (by simp [he])
    have hdo' := inDependencyOrder_prefix hdo
    have hnd' := (List.nodup_append.1 hnd).1
    have hnl : e.1 ∉ l.map Prod.fst := fun hm => (List.nodup_append.1 hnd).2.2 _ hm _ (by simp) rfl
    have hne := hl e (by simp)
    have ih := ih hl' hnd' hdo'
    have hins : ∀ {n : Node Op} {cv : Nat → Except E (List V)} {r' : Except E (List (OpInput V))}, e.1 = k → g.nodes[e.1]? = some n →
        (∀ b, Uses g e.1 b → s1.results b = some (cv b)) → InputsAre S.shapeOf g feeds s1.env cv n.incoming r' →
        ∃ xs, r' = .ok xs ∧ ∀ w, ∃ w' ws y ys, S.compute n.op w xs = .done w' ws (y :: ys) (.ok ()) := by
      intro n cv r' hek hn hcv hin
      obtain ⟨xs, h2, h3⟩ := h.runs e.1 (hek ▸ hk) n hn
      refine ⟨xs, ?_, h3⟩
      have hm := h2 cv fun b hb => h.snapshot hh hl' hnd' hdo' (h.uses hne hb) (hcv b hb)
      have hm := inputsAre_congr (env' := s1.env) (fun i hii m vid hm hv => h.fresh hh hl' hdo' hne hnl ⟨n, hn, i, hii, m, hm, hv⟩) hm
      exact inputsAre_unique (fun _ _ _ => rfl) hin hm
    cases h1 with
    | @run id n cv xs w1 ws ys st r' env1 hn ho hcv hin hc hr' he =>
      simp only at hr
      split at hr
      · rename_i hk'
        cases hr
        obtain ⟨xs', h2, h3⟩ := hins hk'.symm hn hcv hin
        cases h2
        obtain ⟨w', ws', y, ys', h4⟩ := h3 s1.world
        rw [hc] at h4
        cases h4
        simp [outcomeResult] at hr'
        exact ⟨y, ys', hr'.symm⟩
      · exact ih hr
    | @skip id n cv er hn ho hcv hin =>
      simp only at hr
      split at hr
      · rename_i hk'
        obtain ⟨xs', h2, _⟩ := hins hk'.symm hn hcv hin
        cases h2
      · exact ih hr

/-- The run of the updates returns. -/
theorem updates_total (hw : WF g) (hac : Acyclic g) (ht : ∀ t ∈ us, t < g.nodes.length) (hnd : us.Nodup)
    (h : StepOk f S g feeds env us) {fuel : Nat} (hfuel : 2 * (us.length + edgeCount g) ≤ fuel) :
    ∃ env', runUpdates S g fuel us feeds env w = some (.ok env') := by
  have hstep : ∀ (st st' : EvalState V E W) e rest, st.stack = e :: rest →
      (Inv g us st ∧ ExecList S g feeds (.start env w) st.log.reverse (toExec st)) →
      step S g feeds e { st with stack := rest } = .ok st' →
      (Inv g us st' ∧ ExecList S g feeds (.start env w) st'.log.reverse (toExec st')) :=
    fun st st' e rest hstk hP hst => ⟨inv_step hw hstk hP.1 hst, execList_step hw hstk hP.1 hP.2 hst⟩
  have h0 : Inv g us (initState us env w : EvalState V E W) ∧
      ExecList S g feeds (.start env w) (initState us env w : EvalState V E W).log.reverse (toExec (initState us env w)) :=
    ⟨inv_init ht env w, ExecList.nil⟩
  obtain ⟨r, hl⟩ := loop_total (S := S) (feeds := feeds) hw hac fuel (initState us env w : EvalState V E W) h0.1
    (initState_aboveDeps us env w) (Nat.le_trans (potential_init us env w) hfuel)
  have hev : ∃ res, eval S g fuel us feeds env w = some (.ok res) := by
    unfold eval
    rw [hl]
    cases r with
    | error p =>
      obtain ⟨st, e, rest, hP, hs, hp⟩ := loop_error _ hstep fuel _ h0 hl
      obtain ⟨st', hst'⟩ := step_updates_total hw h hs hP.1 hP.2
      rw [hst'] at hp; cases hp
    | ok st =>
      obtain ⟨⟨hi, hx⟩, hs⟩ := loop_inv _ hstep fuel _ st h0 hl
      obtain ⟨rs, hrs⟩ := aggregate_total (S := S) (feeds := feeds) (env := st.env) (w := st.world) hw (ts := us) (s := st.storage) (by
        intro t htm
        have ho := h.isOp t htm
        obtain ⟨r, hr⟩ := Option.isSome_iff_exists.1 ((hi.stored t).2 (hi.complete hs ⟨t, htm, ho, .refl⟩))
        obtain ⟨y, ys, rfl⟩ := h.updated hx (inv_log_needed hi) (by rw [List.map_reverse, List.nodup_reverse]; exact hi.nodup) (order_of_inv hi) htm hr
        exact ⟨.ok y, .result ho hr rfl⟩)
        (fun pre t mid post e => by rw [e] at hnd; simp [List.nodup_append] at hnd)
      exact ⟨⟨rs, st.env, st.world, st.log.reverse⟩, by simp only [hrs]⟩
  obtain ⟨res, hres⟩ := hev
  obtain ⟨l1, l2, l3, final, l4, _, l6⟩ := eval_log hw ht hres
  unfold runUpdates
  rw [hres]
  simp only
  rw [if_pos]
  · exact ⟨_, rfl⟩
  · rw [List.all_eq_true]
    intro r hr
    obtain ⟨j, hj, hjr⟩ := List.mem_iff_getElem.1 hr
    have hj' : j < us.length := by rw [l6.length_eq]; exact hj
    obtain ⟨r', h1, h2⟩ := (forall₂_get l6).2 j _ (List.getElem?_eq_getElem hj')
    rw [List.getElem?_eq_getElem hj, hjr] at h1
    cases h1
    have hm : us[j] ∈ us := List.getElem_mem hj'
    cases h2 with
    | variable_ => rfl
    | placeholder => rfl
    | result => rfl
    | failed _ h3 =>
      obtain ⟨y, ys, h4⟩ := h.updated l4 (fun e he => (l2 e.1).1 (List.mem_map.2 ⟨e, he, rfl⟩)) l1 l3 hm h3
      cases h4

end Eval
end Verif
