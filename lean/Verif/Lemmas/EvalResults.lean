import Verif.Lemmas.EvalValues

/-! Finished evaluations: results, panics. -/

namespace Verif
open Spec Relation
variable {Op V E W : Type}

namespace Eval
open Graph

theorem take_ok {s s' : Storage V E} {t : Nat} {r : Except E V} (h : take s t = .ok (r, s')) :
    s' = (fun k => if k = t then none else s k) ∧
    ((∃ e, s t = some (.error e) ∧ r = .error e) ∨ (∃ ys y, s t = some (.ok ys) ∧ ys[0]? = some y ∧ r = .ok y)) := by
  unfold take at h
  split at h
  · cases h
  · rename_i e he; cases h; exact ⟨rfl, .inl ⟨e, he, rfl⟩⟩
  · rename_i ys he
    split at h
    · rename_i y hy; cases h; exact ⟨rfl, .inr ⟨ys, y, he, hy, rfl⟩⟩
    · cases h

theorem TargetReturns_mono {S : Sem Op V E W} {g : Graph Op} {feeds : List (Feed V)} {a b : ExecState V E W}
    (henv : a.env = b.env) (hres : ∀ k r, a.results k = some r → b.results k = some r) {t : Nat} {r : Except E V}
    (h : TargetReturns S g feeds a t r) : TargetReturns S g feeds b t r := by
  cases h with
  | variable_ h1 h2 h3 => exact .variable_ h1 h2 (henv ▸ h3)
  | placeholder h1 h2 h3 => exact .placeholder h1 h2 h3
  | result h1 h2 h3 => exact .result h1 (hres _ _ h2) h3
  | failed h1 h2 => exact .failed h1 (hres _ _ h2)

theorem aggregate_ok {S : Sem Op V E W} {g : Graph Op} (hw : WF g) {feeds : List (Feed V)} {env : List V} {w : W} :
    ∀ {ts : List Nat} {s : Storage V E} {rs : List (Except E V)}, aggregate S g feeds env ts s = .ok rs →
      List.Forall₂ (fun t r => TargetReturns S g feeds ⟨s, env, w⟩ t r) ts rs ∧
      (∀ t ∈ ts, IsOp g t → (s t).isSome) ∧
      (∀ pre t mid post, ts = pre ++ t :: mid ++ t :: post → ¬ IsOp g t)
  | [], s, rs, h => by
    simp only [aggregate] at h; cases h
    exact ⟨.nil, by simp, by intro pre t mid post h; simp at h⟩
  | t :: ts, s, rs, h => by
    simp only [aggregate, bind_ok] at h
    obtain ⟨n, hn, h⟩ := h
    have hn := access_ok.1 hn
    -- repeated targets, for the two cases in which the storage is not touched
    have hleaf : ¬ IsOp g t → (∀ pre t mid post, ts = pre ++ t :: mid ++ t :: post → ¬ IsOp g t) →
        ∀ pre u mid post, t :: ts = pre ++ u :: mid ++ u :: post → ¬ IsOp g u := by
      intro hno h3 pre u mid post e
      cases pre with
      | nil => simp at e; rw [← e.1]; exact hno
      | cons p pre => simp at e; exact h3 pre u mid post (by simp [e.2])
    split at h
    · rename_i vid hv
      split at h
      · cases h
      · rename_i a ha
        simp only [bind_ok] at h
        obtain ⟨rs', h1, h2⟩ := h
        cases h2
        obtain ⟨i1, i2, i3⟩ := aggregate_ok (w := w) hw h1
        have hno : ¬ IsOp g t := by
          rintro ⟨m, hm, _, h5⟩; rw [hn] at hm; cases hm; rw [hv] at h5; cases h5
        refine ⟨.cons (.variable_ hn hv ha) i1, ?_, hleaf hno i3⟩
        intro u hu ho
        rcases List.mem_cons.1 hu with rfl | hu
        · exact absurd ho hno
        · exact i2 u hu ho
    · rename_i hv
      split at h
      · rename_i name hp
        simp only [bind_ok] at h
        obtain ⟨v, h0, rs', h1, h2⟩ := h
        cases h2
        obtain ⟨i1, i2, i3⟩ := aggregate_ok (w := w) hw h1
        have hno : ¬ IsOp g t := by
          rintro ⟨m, hm, h5, _⟩; rw [hn] at hm; cases hm; rw [hp] at h5; cases h5
        refine ⟨.cons (.placeholder hn hv ((fedWith_iff hw hn hp).1 h0)) i1, ?_, hleaf hno i3⟩
        intro u hu ho
        rcases List.mem_cons.1 hu with rfl | hu
        · exact absurd ho hno
        · exact i2 u hu ho
      · rename_i hp
        simp only [bind_ok, Prod.exists] at h
        obtain ⟨r, s', h0, rs', h1, h2⟩ := h
        cases h2
        have hop : IsOp g t := ⟨n, hn, hp, hv⟩
        obtain ⟨rfl, h3⟩ := take_ok h0
        obtain ⟨i1, i2, i3⟩ := aggregate_ok (w := w) hw h1
        have hts : ∀ u ∈ ts, IsOp g u → u ≠ t := by
          rintro u hu ho rfl
          have := i2 u hu ho; simp at this
        refine ⟨.cons ?_ (i1.imp ?_), ?_, ?_⟩
        · rcases h3 with ⟨e, h4, rfl⟩ | ⟨ys, y, h4, h5, rfl⟩
          · exact .failed hop h4
          · exact .result hop h4 h5
        · intro u r hr
          refine TargetReturns_mono (b := ⟨s, env, w⟩) ?_ ?_ hr
          · rfl
          · intro k r hk
            simp only at hk ⊢
            split at hk
            · cases hk
            · exact hk
        · intro u hu ho
          rcases List.mem_cons.1 hu with rfl | hu
          · rcases h3 with ⟨e, h4, _⟩ | ⟨ys, y, h4, _, _⟩ <;> simp [h4]
          · have := i2 u hu ho
            split at this
            · cases this
            · exact this
        · intro pre u mid post e ho
          cases pre with
          | nil => simp at e; exact hts u (by simp [e.2]) ho e.1.symm
          | cons p pre => simp at e; exact i3 pre u mid post (by simp [e.2]) ho

/-- Everything a finished evaluation guarantees. -/
theorem eval_ok {S : Sem Op V E W} {g : Graph Op} (hw : WF g) {feeds : List (Feed V)} {fuel : Nat} {targets : List Nat}
    (ht : ∀ t ∈ targets, t < g.nodes.length) {env : List V} {w : W} {res : EvalResult V E W}
    (h : eval S g fuel targets feeds env w = some (.ok res)) :
    ∃ st : EvalState V E W, loop S g feeds fuel (initState targets env w) = some (.ok st) ∧
      st.stack = [] ∧ Inv g targets st ∧ res.log = st.log.reverse ∧ res.env = st.env ∧ res.world = st.world ∧
      ExecList S g feeds (.start env w) res.log (toExec st) ∧
      List.Forall₂ (fun t r => TargetReturns S g feeds (toExec st) t r) targets res.results ∧
      (∀ pre t mid post, targets = pre ++ t :: mid ++ t :: post → ¬ IsOp g t) := by
  unfold eval at h
  split at h
  · cases h
  · cases h
  · rename_i st hl
    split at h
    · cases h
    · rename_i rs hr
      cases h
      obtain ⟨⟨hi, hx⟩, hs⟩ := loop_inv (fun st : EvalState V E W => Inv g targets st ∧
          ExecList S g feeds (.start env w) st.log.reverse (toExec st))
        (fun st st' e rest hstk hP hst => ⟨inv_step hw hstk hP.1 hst, execList_step hw hstk hP.1 hP.2 hst⟩)
        fuel _ st ⟨inv_init ht env w, by exact ExecList.nil⟩ hl
      obtain ⟨a1, a2, a3⟩ := aggregate_ok (w := st.world) hw hr
      exact ⟨st, hl, hs, hi, rfl, rfl, rfl, hx, a1, a3⟩

/-! ### Facts about sequential execution -/

theorem ExecOne.node {S : Sem Op V E W} {g : Graph Op} {feeds : List (Feed V)} {s s' : ExecState V E W} {e : Nat × Bool}
    (h : ExecOne S g feeds s e s') : (∀ k, k ≠ e.1 → s'.results k = s.results k) ∧ s'.env.length = s.env.length ∧
      (s'.results e.1).isSome := by
  cases h with
  | run _ _ _ _ _ _ h7 => exact ⟨fun k hk => if_neg hk, h7.1, by simp⟩
  | skip => exact ⟨fun k hk => if_neg hk, rfl, by simp⟩

theorem execList_env_length {S : Sem Op V E W} {g : Graph Op} {feeds : List (Feed V)} {s s' : ExecState V E W}
    {l : List (Nat × Bool)} (h : ExecList S g feeds s l s') : s'.env.length = s.env.length := by
  induction h with
  | nil => rfl
  | snoc _ h1 ih => exact (ExecOne.node h1).2.1.trans ih

theorem execList_results {S : Sem Op V E W} {g : Graph Op} {feeds : List (Feed V)} {env : List V} {w : W} {s' : ExecState V E W}
    {l : List (Nat × Bool)} (h : ExecList S g feeds (.start env w) l s') (k : Nat) :
    (s'.results k).isSome ↔ k ∈ l.map Prod.fst := by
  induction h with
  | nil => simp [ExecState.start]
  | @snoc l s1 e s2 _ h1 ih =>
    obtain ⟨a, _, b⟩ := ExecOne.node h1
    by_cases hk : k = e.1
    · subst hk; simp [b]
    · rw [a k hk, ih]; simp [hk]

/-- Where a stored list of outputs comes from. -/
theorem execList_provenance {S : Sem Op V E W} {g : Graph Op} {feeds : List (Feed V)} {env : List V} {w : W} {s' : ExecState V E W}
    {l : List (Nat × Bool)} (h : ExecList S g feeds (.start env w) l s') {k : Nat} {ys : List V}
    (hk : s'.results k = some (.ok ys)) :
    ∃ n w1 xs w2 ws, g.nodes[k]? = some n ∧ S.compute n.op w1 xs = .done w2 ws ys (.ok ()) := by
  induction h with
  | nil => simp [ExecState.start] at hk
  | @snoc l s1 e s2 _ h1 ih =>
    cases h1 with
    | @run id n cv xs w ws ys' status r env' hn _ _ _ hc ho _ =>
      simp only at hk
      split at hk
      · rename_i he; subst he
        cases hk
        simp only [outcomeResult] at ho
        split at ho
        · cases ho
        · cases status with
          | error e => simp at ho
          | ok u => simp at ho; subst ho; exact ⟨n, _, _, _, _, hn, hc⟩
      · exact ih hk
    | skip =>
      simp only at hk
      split at hk
      · cases hk
      · exact ih hk

/-! ### Panics -/

theorem bind_error {α β : Type} {x : Except Panic α} {f : α → Except Panic β} {p : Panic} :
    (x >>= f) = .error p ↔ x = .error p ∨ ∃ a, x = .ok a ∧ f a = .error p := by
  cases x <;> simp [bind, Except.bind]

theorem findFeed_error {shapeOf : V → List Nat} {id : Nat} {known : Option (List Int)} {name : String} (hk : KnownOk known) :
    ∀ {feeds : List (Feed V)} {p : Panic}, findFeed shapeOf id known name feeds = .error p →
      (p = .placeholderUnfilled ∧ ∀ v, ¬ FirstFeed id name feeds v) ∨
      (p = .placeholderShape ∧ ∃ v d, known = some d ∧ FirstFeed id name feeds v ∧ ¬ ShapeAccepts d (shapeOf v))
  | [], p, h => by
    simp only [findFeed] at h; cases h
    refine .inl ⟨rfl, ?_⟩
    rintro v ⟨pre, f, post, e, _⟩; simp at e
  | f :: fs, p, h => by
    have hmatch : FeedMatches id name f → (do validateKnown known (shapeOf f.value); .ok f.value : Except Panic V) = .error p →
        (p = .placeholderShape ∧ ∃ v d, known = some d ∧ FirstFeed id name (f :: fs) v ∧ ¬ ShapeAccepts d (shapeOf v)) := by
      intro hm he
      rw [bind_error] at he
      obtain ⟨d, rfl, hd⟩ := hk
      rcases he with he | ⟨_, _, he⟩
      · refine ⟨?_, f.value, d, rfl, (firstFeed_cons_match hm).2 rfl, ?_⟩
        · simp only [validateKnown] at he; split at he <;> cases he; rfl
        · intro hacc
          have := (validateShape_iff hd).2 hacc
          simp [validateKnown, this] at he
      · cases he
    have hskip : ¬ FeedMatches id name f → findFeed shapeOf id known name fs = .error p →
        (p = .placeholderUnfilled ∧ ∀ v, ¬ FirstFeed id name (f :: fs) v) ∨
        (p = .placeholderShape ∧ ∃ v d, known = some d ∧ FirstFeed id name (f :: fs) v ∧ ¬ ShapeAccepts d (shapeOf v)) := by
      intro hm he
      simpa only [firstFeed_cons_skip hm] using findFeed_error hk he
    unfold findFeed at h
    cases hkey : f.key with
    | id t =>
      simp only [hkey] at h
      split at h
      · rename_i h'; exact .inr (hmatch (.inl (by rw [hkey, h'])) h)
      · rename_i h'; exact hskip (by rintro (h'' | h'') <;> rw [hkey] at h'' <;> simp at h''; exact h' h''.symm) h
    | name s =>
      simp only [hkey] at h
      split at h
      · rename_i h'; exact .inr (hmatch (.inr (by rw [hkey, h'])) h)
      · rename_i h'; exact hskip (by rintro (h'' | h'') <;> rw [hkey] at h'' <;> simp at h''; exact h' h''.symm) h

theorem placeholder_cause {S : Sem Op V E W} {g : Graph Op} (hw : WF g) {feeds : List (Feed V)} {targets : List Nat} {env : List V}
    {t : Nat} {n : Node Op} {name : String} (hn : g.nodes[t]? = some n) (hp : n.placeholderName = some name)
    (hneed : t ∈ targets ∨ ∃ a, Needed g targets a ∧ DependsDirectly g a t) {p : Panic}
    (h : findFeed S.shapeOf t n.knownShape name feeds = .error p) : PanicCause S g targets feeds env p := by
  rcases findFeed_error (hw.phKnown t n hn (by simp [hp])) h with ⟨rfl, h1⟩ | ⟨rfl, v, d, h1, h2, h3⟩
  · exact .unfed hneed hn hp h1
  · exact .shape hneed hn hp h1 h2 h3

theorem gather_error {S : Sem Op V E W} {g : Graph Op} {feeds : List (Feed V)} {s : Storage V E} {env : List V} {p : Panic} :
    ∀ {is : List Incoming}, gather S g feeds s env is = .error p → ∃ i ∈ is, gatherOne S g feeds s env i = .error p
  | [], h => by simp [gather] at h
  | i :: is, h => by
    simp only [gather, bind_error] at h
    rcases h with h | ⟨r, hr, h⟩
    · exact ⟨i, by simp, h⟩
    · split at h
      · cases h
      · simp only [bind_error] at h
        rcases h with h | ⟨rs, hrs, h⟩
        · obtain ⟨j, hj, h⟩ := gather_error h
          exact ⟨j, by simp [hj], h⟩
        · split at h <;> cases h

theorem step_cause {S : Sem Op V E W} {g : Graph Op} (hw : WF g) {feeds : List (Feed V)} {targets : List Nat} {env : List V} {w : W}
    {st : EvalState V E W} {e : Nat × Bool} {rest : List (Nat × Bool)} (hstk : st.stack = e :: rest)
    (hi : Inv g targets st) (hx : ExecList S g feeds (.start env w) st.log.reverse (toExec st)) {p : Panic}
    (h : step S g feeds e { st with stack := rest } = .error p) : PanicCause S g targets feeds env p := by
  obtain ⟨id, b⟩ := e
  have hid := hi.stackNeeded (id, b) (by simp [hstk])
  obtain ⟨n, hn⟩ : ∃ n, g.nodes[id]? = some n := ⟨_, List.getElem?_eq_getElem hid.1⟩
  simp only [step, bind_error, access_ok] at h
  rcases h with h | ⟨n', hn', h⟩
  · rw [access_ok.2 hn] at h; cases h
  · rw [hn] at hn'; cases hn'
    have hpend := hi.pending
    rw [hstk] at hpend
    split at h
    · rename_i hb; subst hb
      unfold visit at h
      split at h
      · cases h
      · rename_i hwn
        have hop : IsOp g id := by
          by_cases hop : IsOp g id
          · exact hop
          · exact absurd ((wouldNotVisit_iff hn st.storage).2 (.inl hop)) hwn
        have hneed := hid.2 hop
        rw [bind_error] at h
        rcases h with h | ⟨ins, hg, h⟩
        · obtain ⟨i, hii, h⟩ := gather_error h
          have hdd : DependsDirectly g id i.id := ⟨n, hn, i, hii, rfl⟩
          obtain ⟨m, hm⟩ : ∃ m, g.nodes[i.id]? = some m := ⟨_, List.getElem?_eq_getElem (hw.closed _ _ hn i hii)⟩
          simp only [gatherOne, bind_error, access_ok.2 hm] at h
          rcases h with h | ⟨m', hm', h⟩
          · cases h
          · cases hm'
            split at h
            · rename_i name hp
              simp only [bind_error] at h
              rcases h with h | ⟨_, _, h⟩
              · exact placeholder_cause hw hm hp (.inr ⟨id, hneed, hdd⟩) h
              · cases h
            · rename_i hp
              split at h
              · rename_i vid hv
                split at h
                · rename_i hnone
                  cases h
                  have hlen := execList_env_length hx
                  simp only [toExec, ExecState.start] at hlen
                  exact .variable_ (.inr ⟨id, hneed, hdd⟩) hm hv (by rw [← hlen]; simpa using hnone)
                · cases h
              · rename_i hv
                have hio : IsOp g i.id := ⟨m, hm, hp, hv⟩
                have hstored : (st.storage i.id).isSome = true := by
                  rcases hpend.1 rfl i.id ⟨hdd, hio⟩ with h1 | h1
                  · exact h1
                  · simp at h1
                rw [bind_error] at h
                rcases h with h | ⟨r, _, h⟩
                · unfold storageGet at h
                  split at h
                  · rename_i hnone; rw [hnone] at hstored; cases hstored
                  · cases h
                  · rename_i ys hys
                    split at h
                    · cases h
                    · rename_i hsel
                      cases h
                      obtain ⟨m2, w1, xs, w2, ws, hm2, hc⟩ := execList_provenance hx (k := i.id) (ys := ys) hys
                      rw [hm] at hm2; cases hm2
                      exact .selector hneed hn hii hio hm hc (by simpa using hsel)
                · split at h <;> cases h
        · split at h
          · cases h
          · rename_i xs
            split at h
            · rename_i hc; cases h; exact .op hneed hn hc
            · rename_i w1 ws ys status hc
              split at h
              · rename_i hd
                cases h
                simp at hd
                obtain ⟨hd1, rfl⟩ := hd
                exact .noOutput hd1 hneed hn hc
              · cases h
    · rw [bind_error] at h
      obtain ⟨cs, hcs⟩ := childrenToPush_total (s := st.storage) (is := n.incoming) (hw.closed _ _ hn)
      rcases h with h | ⟨_, _, h⟩
      · simp only [hcs] at h; cases h
      · cases h

theorem loop_error {S : Sem Op V E W} {g : Graph Op} {feeds : List (Feed V)} (P : EvalState V E W → Prop)
    (hstep : ∀ st st' e rest, st.stack = e :: rest → P st →
      step S g feeds e { st with stack := rest } = .ok st' → P st') {p : Panic} :
    ∀ fuel st, P st → loop S g feeds fuel st = some (.error p) →
      ∃ st e rest, P st ∧ st.stack = e :: rest ∧ step S g feeds e { st with stack := rest } = .error p := by
  intro fuel
  induction fuel with
  | zero =>
    intro st hP h
    unfold loop at h
    split at h <;> cases h
  | succ fuel ih =>
    intro st hP h
    unfold loop at h
    split at h
    · cases h
    · rename_i e rest hs
      simp only at h
      split at h
      · rename_i p' hp; cases h; exact ⟨st, e, rest, hP, hs, hp⟩
      · rename_i st1 h1
        exact ih st1 (hstep st st1 e rest hs hP h1) h

theorem aggregate_cause {S : Sem Op V E W} {g : Graph Op} (hw : WF g) {feeds : List (Feed V)} {targets : List Nat} {env : List V}
    {w : W} {st : EvalState V E W} (ht : ∀ t ∈ targets, t < g.nodes.length)
    (hx : ExecList S g feeds (.start env w) st.log.reverse (toExec st))
    (hall : ∀ t ∈ targets, IsOp g t → (st.storage t).isSome) {p : Panic} :
    ∀ {ts pre : List Nat} {s : Storage V E}, targets = pre ++ ts → (∀ k, s k = none → k ∈ pre ∨ st.storage k = none) →
      (∀ k r, s k = some r → st.storage k = some r) →
      aggregate S g feeds st.env ts s = .error p → PanicCause S g targets feeds env p
  | [], pre, s, _, _, _, h => by simp [aggregate] at h
  | t :: ts, pre, s, e, h1, h2, h => by
    have htm : t ∈ targets := by simp [e]
    obtain ⟨n, hn⟩ : ∃ n, g.nodes[t]? = some n := ⟨_, List.getElem?_eq_getElem (ht t htm)⟩
    have e' : targets = (pre ++ [t]) ++ ts := by simp [e]
    have h1' : ∀ k, s k = none → k ∈ pre ++ [t] ∨ st.storage k = none := fun k hk => (h1 k hk).imp_left (by simp; exact Or.inl)
    simp only [aggregate, bind_error, access_ok.2 hn] at h
    rcases h with h | ⟨n', hn', h⟩
    · cases h
    · cases hn'
      split at h
      · rename_i vid hv
        split at h
        · rename_i hnone
          cases h
          have hlen := execList_env_length hx
          simp only [toExec, ExecState.start] at hlen
          exact .variable_ (.inl htm) hn hv (by rw [← hlen]; simpa using hnone)
        · rw [bind_error] at h
          rcases h with h | ⟨_, _, h⟩
          · exact aggregate_cause hw ht hx hall e' h1' h2 h
          · cases h
      · rename_i hv
        split at h
        · rename_i name hp
          rw [bind_error] at h
          rcases h with h | ⟨v, _, h⟩
          · exact placeholder_cause hw hn hp (.inl htm) h
          · rw [bind_error] at h
            rcases h with h | ⟨_, _, h⟩
            · exact aggregate_cause hw ht hx hall e' h1' h2 h
            · cases h
        · rename_i hp
          have hop : IsOp g t := ⟨n, hn, hp, hv⟩
          rw [bind_error] at h
          rcases h with h | ⟨⟨r, s'⟩, htk, h⟩
          · unfold take at h
            split at h
            · rename_i hnone
              cases h
              rcases h1 t hnone with h3 | h3
              · obtain ⟨a, b, rfl⟩ := List.append_of_mem h3
                exact .repeated (pre := a) (mid := b) (post := ts) (by simp [e]) hop
              · have := hall t htm hop; rw [h3] at this; cases this
            · cases h
            · rename_i ys hys
              split at h
              · cases h
              · rename_i hsel
                cases h
                obtain ⟨m2, w1, xs, w2, ws, hm2, hc⟩ := execList_provenance hx (k := t) (ys := ys) (h2 _ _ hys)
                rw [hn] at hm2; cases hm2
                have : ys = [] := by simpa using hsel
                subst this
                exact .noFirst htm hop hn hc
          · rw [bind_error] at h
            obtain ⟨rfl, _⟩ := take_ok htk
            rcases h with h | ⟨_, _, h⟩
            · refine aggregate_cause hw ht hx hall e' ?_ ?_ h
              · intro k hk
                simp only at hk
                split at hk
                · rename_i hkt; left; simp [hkt]
                · exact h1' k hk
              · intro k r hk
                simp only at hk
                split at hk
                · cases hk
                · exact h2 k r hk
            · cases h

theorem eval_cause {S : Sem Op V E W} {g : Graph Op} (hw : WF g) {feeds : List (Feed V)} {fuel : Nat} {targets : List Nat}
    (ht : ∀ t ∈ targets, t < g.nodes.length) {env : List V} {w : W} {p : Panic}
    (h : eval S g fuel targets feeds env w = some (.error p)) : PanicCause S g targets feeds env p := by
  have hstep : ∀ (st st' : EvalState V E W) e rest, st.stack = e :: rest →
      (Inv g targets st ∧ ExecList S g feeds (.start env w) st.log.reverse (toExec st)) →
      step S g feeds e { st with stack := rest } = .ok st' →
      (Inv g targets st' ∧ ExecList S g feeds (.start env w) st'.log.reverse (toExec st')) :=
    fun st st' e rest hstk hP hst => ⟨inv_step hw hstk hP.1 hst, execList_step hw hstk hP.1 hP.2 hst⟩
  have h0 : Inv g targets (initState targets env w : EvalState V E W) ∧
      ExecList S g feeds (.start env w) (initState targets env w : EvalState V E W).log.reverse (toExec (initState targets env w)) :=
    ⟨inv_init ht env w, ExecList.nil⟩
  unfold eval at h
  split at h
  · cases h
  · rename_i p' hl
    cases h
    obtain ⟨st, e, rest, hP, hs, hp⟩ := loop_error _ hstep fuel _ h0 hl
    exact step_cause hw hs hP.1 hP.2 hp
  · rename_i st hl
    obtain ⟨⟨hi, hx⟩, hs⟩ := loop_inv _ hstep fuel _ st h0 hl
    split at h
    · rename_i p' hp
      cases h
      refine aggregate_cause hw ht hx ?_ (pre := []) rfl (fun k hk => .inr hk) (fun _ _ h => h) hp
      intro t htm hop
      exact (hi.stored t).2 (hi.complete hs ⟨t, htm, hop, .refl⟩)
    · cases h

end Eval
end Verif
