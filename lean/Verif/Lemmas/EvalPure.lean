import Verif.Lemmas.EvalResults

/-! Evaluation of graphs whose needed ops are functions of their inputs and write to no variable. -/

namespace Verif
open Spec Relation
variable {Op V E W : Type}

namespace Eval
open Graph

theorem firstFeed_unique {id : Nat} {name : String} : ∀ {feeds : List (Feed V)} {v v' : V},
    FirstFeed id name feeds v → FirstFeed id name feeds v' → v = v'
  | [], v, v', h, _ => by obtain ⟨pre, f, post, e, _⟩ := h; simp at e
  | f :: fs, v, v', h, h' => by
    by_cases hm : FeedMatches id name f
    · rw [firstFeed_cons_match hm] at h h'; rw [← h, ← h']
    · rw [firstFeed_cons_skip hm] at h h'; exact firstFeed_unique h h'

theorem fedWith_unique {shapeOf : V → List Nat} {feeds : List (Feed V)} {id : Nat} {n : Node Op} {v v' : V}
    (h : FedWith shapeOf feeds id n v) (h' : FedWith shapeOf feeds id n v') : v = v' := by
  obtain ⟨nm, d, h1, _, h2, _⟩ := h
  obtain ⟨nm', d', h1', _, h2', _⟩ := h'
  rw [h1] at h1'; cases h1'
  exact firstFeed_unique h2 h2'

theorem inputIs_unique {shapeOf : V → List Nat} {g : Graph Op} {feeds : List (Feed V)} {env : List V}
    {cv cv' : Nat → Except E (List V)} {i : Incoming} (hcv : IsOp g i.id → cv i.id = cv' i.id) {r r' : Except E (OpInput V)}
    (h : InputIs shapeOf g feeds env cv i r) (h' : InputIs shapeOf g feeds env cv' i r') : r = r' := by
  cases h with
  | placeholder hn hf =>
    obtain ⟨nm, d, hp, _⟩ := id hf
    cases h' with
    | placeholder hn' hf' => rw [hn] at hn'; cases hn'; rw [fedWith_unique hf hf']
    | variable_ hn' hp' _ _ => rw [hn] at hn'; cases hn'; rw [hp] at hp'; cases hp'
    | result ho => obtain ⟨m, hm, hp', _⟩ := ho; rw [hn] at hm; cases hm; rw [hp] at hp'; cases hp'
    | failed ho => obtain ⟨m, hm, hp', _⟩ := ho; rw [hn] at hm; cases hm; rw [hp] at hp'; cases hp'
  | variable_ hn hp hv ha =>
    cases h' with
    | placeholder hn' hf' =>
      obtain ⟨nm, d, hp', _⟩ := id hf'
      rw [hn] at hn'; cases hn'; rw [hp] at hp'; cases hp'
    | variable_ hn' hp' hv' ha' => rw [hn] at hn'; cases hn'; rw [hv] at hv'; cases hv'; rw [ha] at ha'; cases ha'; rfl
    | result ho => obtain ⟨m, hm, _, hv'⟩ := ho; rw [hn] at hm; cases hm; rw [hv] at hv'; cases hv'
    | failed ho => obtain ⟨m, hm, _, hv'⟩ := ho; rw [hn] at hm; cases hm; rw [hv] at hv'; cases hv'
  | result ho h1 h2 =>
    obtain ⟨m, hm, hp, hv⟩ := id ho
    cases h' with
    | placeholder hn' hf' =>
      obtain ⟨nm, d, hp', _⟩ := id hf'
      rw [hm] at hn'; cases hn'; rw [hp] at hp'; cases hp'
    | variable_ hn' hp' hv' ha' => rw [hm] at hn'; cases hn'; rw [hv] at hv'; cases hv'
    | result _ h1' h2' => rw [hcv ho, h1'] at h1; cases h1; rw [h2] at h2'; cases h2'; rfl
    | failed _ h1' => rw [hcv ho, h1'] at h1; cases h1
  | failed ho h1 =>
    obtain ⟨m, hm, hp, hv⟩ := id ho
    cases h' with
    | placeholder hn' hf' =>
      obtain ⟨nm, d, hp', _⟩ := id hf'
      rw [hm] at hn'; cases hn'; rw [hp] at hp'; cases hp'
    | variable_ hn' hp' hv' ha' => rw [hm] at hn'; cases hn'; rw [hv] at hv'; cases hv'
    | result _ h1' h2' => rw [hcv ho, h1'] at h1; cases h1
    | failed _ h1' => rw [hcv ho, h1'] at h1; cases h1; rfl

theorem inputsAre_unique {shapeOf : V → List Nat} {g : Graph Op} {feeds : List (Feed V)} {env : List V}
    {cv cv' : Nat → Except E (List V)} : ∀ {is : List Incoming}, (∀ i ∈ is, IsOp g i.id → cv i.id = cv' i.id) →
    ∀ {r r' : Except E (List (OpInput V))}, InputsAre shapeOf g feeds env cv is r → InputsAre shapeOf g feeds env cv' is r' → r = r'
  | [], _, r, r', h, h' => by cases h; cases h'; rfl
  | i :: is, hcv, r, r', h, h' => by
    have hi := hcv i (by simp)
    have his : ∀ j ∈ is, IsOp g j.id → cv j.id = cv' j.id := fun j hj => hcv j (by simp [hj])
    cases h with
    | cons a b =>
      cases h' with
      | cons a' b' => cases inputIs_unique hi a a'; cases inputsAre_unique his b b'; rfl
      | later a' b' => cases inputsAre_unique his b b'
      | first a' => cases inputIs_unique hi a a'
    | later a b =>
      cases h' with
      | cons a' b' => cases inputsAre_unique his b b'
      | later a' b' => cases inputsAre_unique his b b'; rfl
      | first a' => cases inputIs_unique hi a a'
    | first a =>
      cases h' with
      | cons a' b' => cases inputIs_unique hi a a'
      | later a' b' => cases inputIs_unique hi a a'
      | first a' => cases inputIs_unique hi a a'; rfl

variable {f : Op → List (OpInput V) → Option (Except E (List V))} {shapeOf : V → List Nat}

theorem means_unique {g : Graph Op} {feeds : List (Feed V)} {env : List V} {id : Nat} {r r' : Except E (List V)}
    (h : Means f shapeOf g feeds env id r) (h' : Means f shapeOf g feeds env id r') : r = r' := by
  induction h generalizing r' with
  | run hn _ _ hin hf ih =>
    cases h' with
    | run hn' _ hb' hin' hf' =>
      rw [hn] at hn'; cases hn'
      have := inputsAre_unique (fun i hi ho => ih i.id ⟨⟨_, hn, i, hi, rfl⟩, ho⟩ (hb' i.id ⟨⟨_, hn, i, hi, rfl⟩, ho⟩)) hin hin'
      cases this; rw [hf] at hf'; cases hf'; rfl
    | fail hn' _ hb' hin' =>
      rw [hn] at hn'; cases hn'
      have := inputsAre_unique (fun i hi ho => ih i.id ⟨⟨_, hn, i, hi, rfl⟩, ho⟩ (hb' i.id ⟨⟨_, hn, i, hi, rfl⟩, ho⟩)) hin hin'
      cases this
  | fail hn _ _ hin ih =>
    cases h' with
    | run hn' _ hb' hin' hf' =>
      rw [hn] at hn'; cases hn'
      have := inputsAre_unique (fun i hi ho => ih i.id ⟨⟨_, hn, i, hi, rfl⟩, ho⟩ (hb' i.id ⟨⟨_, hn, i, hi, rfl⟩, ho⟩)) hin hin'
      cases this
    | fail hn' _ hb' hin' =>
      rw [hn] at hn'; cases hn'
      have := inputsAre_unique (fun i hi ho => ih i.id ⟨⟨_, hn, i, hi, rfl⟩, ho⟩ (hb' i.id ⟨⟨_, hn, i, hi, rfl⟩, ho⟩)) hin hin'
      cases this; rfl

theorem means_isOp {g : Graph Op} {feeds : List (Feed V)} {env : List V} {id : Nat} {r : Except E (List V)}
    (h : Means f shapeOf g feeds env id r) : IsOp g id := by
  cases h <;> assumption

/-- What a tensor uses has a meaning if the tensor has one. -/
theorem means_below {g : Graph Op} {feeds : List (Feed V)} {env : List V} {a b : Nat} {r : Except E (List V)}
    (h : Means f shapeOf g feeds env a r) (hu : ReflTransGen (Uses g) a b) : ∃ r, Means f shapeOf g feeds env b r := by
  induction hu with
  | refl => exact ⟨r, h⟩
  | tail _ hu ih =>
    obtain ⟨r, hr⟩ := ih
    cases hr with
    | run _ _ hb => exact ⟨_, hb _ hu⟩
    | fail _ _ hb => exact ⟨_, hb _ hu⟩

theorem targetMeans_unique {g : Graph Op} {feeds : List (Feed V)} {env : List V} {t : Nat} {r r' : Except E V}
    (h : TargetMeans f shapeOf g feeds env t r) (h' : TargetMeans f shapeOf g feeds env t r') : r = r' := by
  have hop : ∀ {x}, Means f shapeOf g feeds env t x → ∀ {n : Node Op}, g.nodes[t]? = some n →
      n.variableId = none ∧ n.placeholderName = none := by
    intro x hx n hn
    obtain ⟨m, hm, h1, h2⟩ := means_isOp hx
    rw [hn] at hm; cases hm; exact ⟨h2, h1⟩
  have hph : ∀ {n : Node Op} {v : V}, FedWith shapeOf feeds t n v → n.placeholderName ≠ none := by
    rintro n v ⟨nm, d, h1, _⟩ h2; rw [h1] at h2; cases h2
  cases h with
  | placeholder hn hv hf =>
    cases h' with
    | placeholder hn' _ hf' => rw [hn] at hn'; cases hn'; rw [fedWith_unique hf hf']
    | variable_ hn' hv' => rw [hn] at hn'; cases hn'; rw [hv] at hv'; cases hv'
    | result hm => exact absurd (hop hm hn).2 (hph hf)
    | failed hm => exact absurd (hop hm hn).2 (hph hf)
  | variable_ hn hv ha =>
    cases h' with
    | placeholder hn' hv' hf' => rw [hn] at hn'; cases hn'; rw [hv] at hv'; cases hv'
    | variable_ hn' hv' ha' => rw [hn] at hn'; cases hn'; rw [hv] at hv'; cases hv'; rw [ha] at ha'; cases ha'; rfl
    | result hm => have := (hop hm hn).1; rw [hv] at this; cases this
    | failed hm => have := (hop hm hn).1; rw [hv] at this; cases this
  | result hm hy =>
    cases h' with
    | placeholder hn' hv' hf' => exact absurd (hop hm hn').2 (hph hf')
    | variable_ hn' hv' ha' => have := (hop hm hn').1; rw [hv'] at this; cases this
    | result hm' hy' => cases means_unique hm hm'; rw [hy] at hy'; cases hy'; rfl
    | failed hm' => cases means_unique hm hm'
  | failed hm =>
    cases h' with
    | placeholder hn' hv' hf' => exact absurd (hop hm hn').2 (hph hf')
    | variable_ hn' hv' ha' => have := (hop hm hn').1; rw [hv'] at this; cases this
    | result hm' hy' => cases means_unique hm hm'
    | failed hm' => cases means_unique hm hm'; rfl

/-! ### Meaning is preserved when the graph grows -/

/-- `g'` has all nodes of `g`. -/
def Extends (g g' : Graph Op) : Prop := ∀ (id : Nat) (n : Node Op), g.nodes[id]? = some n → g'.nodes[id]? = some n

theorem Extends.isOp {g g' : Graph Op} (h : Extends g g') {id : Nat} (ho : IsOp g id) : IsOp g' id := by
  obtain ⟨n, hn, h1⟩ := ho; exact ⟨n, h _ _ hn, h1⟩

theorem Extends.isOp_back {g g' : Graph Op} (h : Extends g g') {id : Nat} {n : Node Op} (hn : g.nodes[id]? = some n)
    (ho : IsOp g' id) : IsOp g id := by
  obtain ⟨m, hm, h1⟩ := ho
  rw [h _ _ hn] at hm; cases hm; exact ⟨n, hn, h1⟩

theorem Extends.inputIs {g g' : Graph Op} (h : Extends g g') {feeds : List (Feed V)} {env : List V}
    {cv : Nat → Except E (List V)} {i : Incoming} {r : Except E (OpInput V)} (hi : InputIs shapeOf g feeds env cv i r) :
    InputIs shapeOf g' feeds env cv i r := by
  cases hi with
  | placeholder hn hf => exact .placeholder (h _ _ hn) hf
  | variable_ hn hp hv ha => exact .variable_ (h _ _ hn) hp hv ha
  | result ho h1 h2 => exact .result (h.isOp ho) h1 h2
  | failed ho h1 => exact .failed (h.isOp ho) h1

theorem Extends.inputsAre {g g' : Graph Op} (h : Extends g g') {feeds : List (Feed V)} {env : List V}
    {cv : Nat → Except E (List V)} {is : List Incoming} {r : Except E (List (OpInput V))}
    (hi : InputsAre shapeOf g feeds env cv is r) : InputsAre shapeOf g' feeds env cv is r := by
  induction hi with
  | nil => exact .nil
  | cons a _ ih => exact .cons (h.inputIs a) ih
  | later a _ ih => exact .later (h.inputIs a) ih
  | first a => exact .first (h.inputIs a)

theorem Extends.uses_back {g g' : Graph Op} (h : Extends g g') (hc : Closed g) {a b : Nat} {n : Node Op}
    (hn : g.nodes[a]? = some n) (hu : Uses g' a b) : Uses g a b := by
  obtain ⟨⟨m, hm, i, hi, rfl⟩, ho⟩ := hu
  rw [h _ _ hn] at hm; cases hm
  obtain ⟨k, hk⟩ : ∃ k, g.nodes[i.id]? = some k := ⟨_, List.getElem?_eq_getElem (hc a n hn i hi)⟩
  exact ⟨⟨n, hn, i, hi, rfl⟩, h.isOp_back hk ho⟩

theorem Extends.means {g g' : Graph Op} (h : Extends g g') (hc : Closed g) {feeds : List (Feed V)} {env : List V}
    {id : Nat} {r : Except E (List V)} (hm : Means f shapeOf g feeds env id r) : Means f shapeOf g' feeds env id r := by
  induction hm with
  | run hn ho _ hin hf ih =>
    exact .run (h _ _ hn) (h.isOp ho) (fun b hb => ih b (h.uses_back hc hn hb)) (h.inputsAre hin) hf
  | fail hn ho _ hin ih =>
    exact .fail (h _ _ hn) (h.isOp ho) (fun b hb => ih b (h.uses_back hc hn hb)) (h.inputsAre hin)

theorem Extends.targetMeans {g g' : Graph Op} (h : Extends g g') (hc : Closed g) {feeds : List (Feed V)} {env : List V}
    {t : Nat} {r : Except E V} (hm : TargetMeans f shapeOf g feeds env t r) : TargetMeans f shapeOf g' feeds env t r := by
  cases hm with
  | placeholder hn hv hf => exact .placeholder (h _ _ hn) hv hf
  | variable_ hn hv ha => exact .variable_ (h _ _ hn) hv ha
  | result hm hy => exact .result (h.means hc hm) hy
  | failed hm => exact .failed (h.means hc hm)

/-! ### The evaluator computes the meaning -/

theorem writesVar_mayWrite {g : Graph Op} {a : Nat} {n : Node Op} (hn : g.nodes[a]? = some n) {k vid : Nat}
    (h : WritesVar g n k vid) : MayWrite g a vid := by
  obtain ⟨i, m, h1, h2, h3, h4, h5⟩ := h
  exact ⟨n, hn, i, List.mem_of_getElem? h1, h2, m, h3, h4, h5⟩

theorem envAfter_frame {g : Graph Op} {a : Nat} {n : Node Op} (hn : g.nodes[a]? = some n) {ws : List (Nat × V)} {env env' : List V}
    (h : EnvAfter g n ws env env') {vid : Nat} (hno : ¬ MayWrite g a vid) : env'[vid]? = env[vid]? := by
  by_cases hv : vid < env.length
  · rcases h.2 vid hv with ⟨pre, k, v, post, _, h1, _⟩ | ⟨_, h1⟩
    · exact absurd (writesVar_mayWrite hn h1) hno
    · exact h1
  · have := h.1
    rw [List.getElem?_eq_none (by omega), List.getElem?_eq_none (by omega)]

/-- A variable that no executed op may write to keeps its array. -/
theorem execList_frame {S : Sem Op V E W} {g : Graph Op} {feeds : List (Feed V)} {s s' : ExecState V E W}
    {l : List (Nat × Bool)} (h : ExecList S g feeds s l s') {vid : Nat} (hno : ∀ a, (a, true) ∈ l → ¬ MayWrite g a vid) :
    s'.env[vid]? = s.env[vid]? := by
  induction h with
  | nil => rfl
  | @snoc l s1 e s2 _ h1 ih =>
    have ih := ih (fun a ha => hno a (by simp [ha]))
    cases h1 with
    | run hn _ _ _ _ _ he =>
      exact (envAfter_frame hn he (hno _ (by simp))).trans ih
    | skip => exact ih

theorem execList_means {S : Sem Op V E W} {g : Graph Op} {feeds : List (Feed V)} {targets : List Nat} {env : List V} {w : W}
    (hpure : ∀ (a : Nat) (n : Node Op), Needed g targets a → g.nodes[a]? = some n → Computes S n.op (f n.op))
    (hnw : ∀ a vid, Needed g targets a → ¬ MayWrite g a vid)
    {s' : ExecState V E W} {l : List (Nat × Bool)} (h : ExecList S g feeds (.start env w) l s')
    (hl : ∀ e ∈ l, Needed g targets e.1) :
    s'.env = env ∧ ∀ k r, s'.results k = some r → Means f S.shapeOf g feeds env k r := by
  induction h with
  | nil => exact ⟨rfl, by simp [ExecState.start]⟩
  | @snoc l s1 e s2 hh h1 ih =>
    have hl' : ∀ e ∈ l, Needed g targets e.1 := fun e he => hl e (by simp [he])
    obtain ⟨ih1, ih2⟩ := ih hl'
    have hne := hl e (by simp)
    cases h1 with
    | run hn ho hcv hin hc hr he =>
      refine ⟨?_, ?_⟩
      · rw [← ih1]
        apply List.ext_getElem?
        intro vid
        exact envAfter_frame hn he (hnw _ vid hne)
      · intro k r hk
        simp only at hk
        split at hk
        · rename_i hk'; subst hk'; cases hk
          rw [ih1] at hin
          refine .run hn ho (fun b hb => ih2 b _ (hcv b hb)) hin ?_
          rw [← hpure _ _ hne hn, hc]; exact hr
        · exact ih2 k r hk
    | skip hn ho hcv hin =>
      refine ⟨ih1, ?_⟩
      intro k r hk
      simp only at hk
      split at hk
      · rename_i hk'; subst hk'; cases hk
        rw [ih1] at hin
        exact .fail hn ho (fun b hb => ih2 b _ (hcv b hb)) hin
      · exact ih2 k r hk

theorem inv_log_needed {g : Graph Op} {targets : List Nat} {st : EvalState V E W} (hi : Inv g targets st) :
    ∀ e ∈ st.log.reverse, Needed g targets e.1 := by
  intro e he
  exact (hi.logNeeded e.1 (List.mem_map.2 ⟨e, by simpa using he, rfl⟩)).1

theorem needed_means {g : Graph Op} {feeds : List (Feed V)} {targets : List Nat} {env : List V}
    (hm : ∀ t ∈ targets, ∃ r, TargetMeans f shapeOf g feeds env t r) {a : Nat} (ha : Needed g targets a) :
    ∃ r, Means f shapeOf g feeds env a r := by
  obtain ⟨t, ht, ho, hr⟩ := ha
  obtain ⟨r, h⟩ := hm t ht
  obtain ⟨m, hm', h1, h2⟩ := ho
  cases h with
  | placeholder hn hv hf =>
    obtain ⟨nm, d, h3, _⟩ := hf
    rw [hm'] at hn; cases hn; rw [h1] at h3; cases h3
  | variable_ hn hv => rw [hm'] at hn; cases hn; rw [h2] at hv; cases hv
  | result h => exact means_below h hr
  | failed h => exact means_below h hr

theorem step_pure_total {S : Sem Op V E W} {g : Graph Op} (hw : WF g) {feeds : List (Feed V)} {targets : List Nat} {env : List V} {w : W}
    (hpure : ∀ (a : Nat) (n : Node Op), Needed g targets a → g.nodes[a]? = some n → Computes S n.op (f n.op))
    (hnw : ∀ a vid, Needed g targets a → ¬ MayWrite g a vid)
    (hm : ∀ t ∈ targets, ∃ r, TargetMeans f S.shapeOf g feeds env t r)
    {st : EvalState V E W} {e : Nat × Bool} {rest : List (Nat × Bool)} (hstk : st.stack = e :: rest)
    (hi : Inv g targets st) (hx : ExecList S g feeds (.start env w) st.log.reverse (toExec st)) :
    ∃ st', step S g feeds e { st with stack := rest } = .ok st' := by
  obtain ⟨id, b⟩ := e
  have hid := hi.stackNeeded (id, b) (by simp [hstk])
  obtain ⟨n, hn⟩ : ∃ n, g.nodes[id]? = some n := ⟨_, List.getElem?_eq_getElem hid.1⟩
  have hpend := hi.pending
  rw [hstk] at hpend
  simp only [step, access_ok.2 hn]
  cases b with
  | false =>
    obtain ⟨cs, hcs⟩ := childrenToPush_total (s := st.storage) (is := n.incoming) (hw.closed _ _ hn)
    exact ⟨_, by simp only [bind, Except.bind, hcs]; rfl⟩
  | true =>
    show ∃ st', visit S g feeds n id { st with stack := rest } = .ok st'
    unfold visit
    split
    · exact ⟨_, rfl⟩
    · rename_i hwn
      have hop : IsOp g id := by
        by_cases hop : IsOp g id
        · exact hop
        · exact absurd ((wouldNotVisit_iff hn st.storage).2 (.inl hop)) hwn
      have hneed := hid.2 hop
      obtain ⟨henv, hvals⟩ := execList_means hpure hnw hx (inv_log_needed hi)
      simp only [toExec] at henv hvals
      obtain ⟨r, hr⟩ := needed_means hm hneed
      -- the stored results are the ones used by the meaning
      have hcv : ∀ {cv : Nat → Except E (List V)}, (∀ b, Uses g id b → Means f S.shapeOf g feeds env b (cv b)) →
          ∀ i ∈ n.incoming, IsOp g i.id → st.storage i.id = some (cv i.id) := by
        intro cv hb i hii ho
        have hu : Uses g id i.id := ⟨⟨n, hn, i, hii, rfl⟩, ho⟩
        have hs : (st.storage i.id).isSome = true := by
          rcases hpend.1 rfl i.id hu with h1 | h1
          · exact h1
          · simp at h1
        obtain ⟨r', hr'⟩ := Option.isSome_iff_exists.1 hs
        rw [hr', means_unique (hvals _ _ hr') (hb _ hu)]
      cases hr with
      | @run _ _ _ _ xs hn' _ hb hin hf =>
        rw [hn] at hn'; cases hn'
        have := (gather_ok (S := S) (s := st.storage) hw (hcv hb)).2 hin
        rw [← henv] at this
        simp only [this, bind, Except.bind]
        have hc := hpure _ _ hneed hn st.world xs
        rw [hf] at hc
        cases hcc : S.compute n.op st.world xs with
        | panic => rw [hcc] at hc; simp [outcomeResult] at hc
        | done w1 ws ys status =>
          simp only
          split
          · rename_i hd
            rw [hcc] at hc
            simp at hd
            simp [outcomeResult, hd] at hc
          · exact ⟨_, rfl⟩
      | fail hn' _ hb hin =>
        rw [hn] at hn'; cases hn'
        have := (gather_ok (S := S) (s := st.storage) hw (hcv hb)).2 hin
        rw [← henv] at this
        simp only [this, bind, Except.bind]
        exact ⟨_, rfl⟩

theorem aggregate_total {S : Sem Op V E W} {g : Graph Op} (hw : WF g) {feeds : List (Feed V)} {env : List V} {w : W} :
    ∀ {ts : List Nat} {s : Storage V E}, (∀ t ∈ ts, ∃ r, TargetReturns S g feeds ⟨s, env, w⟩ t r) →
      (∀ pre t mid post, ts = pre ++ t :: mid ++ t :: post → ¬ IsOp g t) →
      ∃ rs, aggregate S g feeds env ts s = .ok rs
  | [], s, _, _ => ⟨[], rfl⟩
  | t :: ts, s, h, hd => by
    obtain ⟨r, hr⟩ := h t (by simp)
    have hd' : ∀ pre t mid post, ts = pre ++ t :: mid ++ t :: post → ¬ IsOp g t :=
      fun pre u mid post e => hd (t :: pre) u mid post (by simp [e])
    have htl := aggregate_total hw (s := s) (w := w) (fun u hu => h u (by simp [hu])) hd'
    cases hr with
    | variable_ hn hv ha =>
      obtain ⟨rs, hrs⟩ := htl
      simp only at ha
      exact ⟨_, by simp only [aggregate, access_ok.2 hn, bind, Except.bind, hv, ha, hrs]; rfl⟩
    | placeholder hn hv hf =>
      obtain ⟨rs, hrs⟩ := htl
      obtain ⟨nm, d, hp, _⟩ := id hf
      exact ⟨_, by simp only [aggregate, access_ok.2 hn, bind, Except.bind, hv, hp, (fedWith_iff hw hn hp).2 hf, hrs]; rfl⟩
    | @result ys y ho h1 h2 =>
      obtain ⟨n, hn, hp, hv⟩ := id ho
      have hne : ∀ u ∈ ts, IsOp g u → u ≠ t := by
        rintro u hu _ rfl
        obtain ⟨a, b, rfl⟩ := List.append_of_mem hu
        exact hd [] u a b (by simp) ho
      obtain ⟨rs, hrs⟩ := aggregate_total (S := S) (feeds := feeds) (env := env) hw (s := fun k => if k = t then none else s k) (w := w) (ts := ts) (fun u hu => by
        obtain ⟨r, hr⟩ := h u (by simp [hu])
        refine ⟨r, ?_⟩
        cases hr with
        | variable_ a b c => exact .variable_ a b c
        | placeholder a b c => exact .placeholder a b c
        | result a b c => exact .result a (by simp only at b ⊢; rw [if_neg (hne u hu a)]; exact b) c
        | failed a b => exact .failed a (by simp only at b ⊢; rw [if_neg (hne u hu a)]; exact b)) hd'
      refine ⟨.ok y :: rs, ?_⟩
      simp only at h1
      simp only [aggregate, access_ok.2 hn, bind, Except.bind, hv, hp, take, h1, h2, hrs]
    | @failed e ho h1 =>
      obtain ⟨n, hn, hp, hv⟩ := id ho
      have hne : ∀ u ∈ ts, IsOp g u → u ≠ t := by
        rintro u hu _ rfl
        obtain ⟨a, b, rfl⟩ := List.append_of_mem hu
        exact hd [] u a b (by simp) ho
      obtain ⟨rs, hrs⟩ := aggregate_total (S := S) (feeds := feeds) (env := env) hw (s := fun k => if k = t then none else s k) (w := w) (ts := ts) (fun u hu => by
        obtain ⟨r, hr⟩ := h u (by simp [hu])
        refine ⟨r, ?_⟩
        cases hr with
        | variable_ a b c => exact .variable_ a b c
        | placeholder a b c => exact .placeholder a b c
        | result a b c => exact .result a (by simp only at b ⊢; rw [if_neg (hne u hu a)]; exact b) c
        | failed a b => exact .failed a (by simp only at b ⊢; rw [if_neg (hne u hu a)]; exact b)) hd'
      refine ⟨.error e :: rs, ?_⟩
      simp only at h1
      simp only [aggregate, access_ok.2 hn, bind, Except.bind, hv, hp, take, h1, hrs]

theorem initState_aboveDeps {g : Graph Op} (targets : List Nat) (env : List V) (w : W) :
    AboveDeps g (initState targets env w : EvalState V E W).stack := by
  unfold AboveDeps initState
  simp only
  rw [← List.map_reverse, List.pairwise_map]
  exact List.pairwise_of_forall (by simp)

/-- Total correctness for pure graphs. -/
theorem eval_pure_total {S : Sem Op V E W} {g : Graph Op} (hw : WF g) (hac : Acyclic g) {feeds : List (Feed V)} {targets : List Nat}
    (ht : ∀ t ∈ targets, t < g.nodes.length) {env : List V} {w : W}
    (hpure : ∀ (a : Nat) (n : Node Op), Needed g targets a → g.nodes[a]? = some n → Computes S n.op (f n.op))
    (hnw : ∀ a vid, Needed g targets a → ¬ MayWrite g a vid)
    (hd : ∀ pre t mid post, targets = pre ++ t :: mid ++ t :: post → ¬ IsOp g t)
    (hm : ∀ t ∈ targets, ∃ r, TargetMeans f S.shapeOf g feeds env t r) {fuel : Nat}
    (hfuel : 2 * (targets.length + edgeCount g) ≤ fuel) :
    ∃ res, eval S g fuel targets feeds env w = some (.ok res) := by
  have hstep : ∀ (st st' : EvalState V E W) e rest, st.stack = e :: rest →
      (Inv g targets st ∧ ExecList S g feeds (.start env w) st.log.reverse (toExec st)) →
      step S g feeds e { st with stack := rest } = .ok st' →
      (Inv g targets st' ∧ ExecList S g feeds (.start env w) st'.log.reverse (toExec st')) :=
    fun st st' e rest hstk hP hst => ⟨inv_step hw hstk hP.1 hst, execList_step hw hstk hP.1 hP.2 hst⟩
  have h0 : Inv g targets (initState targets env w : EvalState V E W) ∧
      ExecList S g feeds (.start env w) (initState targets env w : EvalState V E W).log.reverse (toExec (initState targets env w)) :=
    ⟨inv_init ht env w, ExecList.nil⟩
  obtain ⟨r, hl⟩ := loop_total (S := S) (feeds := feeds) hw hac fuel (initState targets env w : EvalState V E W) h0.1
    (initState_aboveDeps targets env w) (Nat.le_trans (potential_init targets env w) hfuel)
  unfold eval
  rw [hl]
  cases r with
  | error p =>
    obtain ⟨st, e, rest, hP, hs, hp⟩ := loop_error _ hstep fuel _ h0 hl
    obtain ⟨st', hst'⟩ := step_pure_total hw hpure hnw hm hs hP.1 hP.2
    rw [hst'] at hp; cases hp
  | ok st =>
    obtain ⟨⟨hi, hx⟩, hs⟩ := loop_inv _ hstep fuel _ st h0 hl
    obtain ⟨henv, hvals⟩ := execList_means hpure hnw hx (inv_log_needed hi)
    simp only [toExec] at henv hvals
    obtain ⟨rs, hrs⟩ := aggregate_total (S := S) (feeds := feeds) (env := st.env) (w := st.world) hw (ts := targets) (s := st.storage) (by
      intro t htm
      obtain ⟨r, hr⟩ := hm t htm
      refine ⟨r, ?_⟩
      have hst : IsOp g t → ∃ x, st.storage t = some x := fun ho =>
        Option.isSome_iff_exists.1 ((hi.stored t).2 (hi.complete hs ⟨t, htm, ho, .refl⟩))
      cases hr with
      | placeholder a b c => exact .placeholder a b c
      | variable_ a b c => exact .variable_ a b (by rw [henv]; exact c)
      | result a b =>
        obtain ⟨x, hx'⟩ := hst (means_isOp a)
        cases means_unique a (hvals _ _ hx')
        exact .result (means_isOp a) hx' b
      | failed a =>
        obtain ⟨x, hx'⟩ := hst (means_isOp a)
        cases means_unique a (hvals _ _ hx')
        exact .failed (means_isOp a) hx') hd
    exact ⟨⟨rs, st.env, st.world, st.log.reverse⟩, by simp only [hrs]⟩

theorem eval_pure_partial {S : Sem Op V E W} {g : Graph Op} (hw : WF g) {feeds : List (Feed V)} {fuel : Nat} {targets : List Nat}
    (ht : ∀ t ∈ targets, t < g.nodes.length) {env : List V} {w : W}
    (hpure : ∀ (a : Nat) (n : Node Op), Needed g targets a → g.nodes[a]? = some n → Computes S n.op (f n.op))
    (hnw : ∀ a vid, Needed g targets a → ¬ MayWrite g a vid) {res : EvalResult V E W}
    (h : eval S g fuel targets feeds env w = some (.ok res)) :
    List.Forall₂ (fun t r => TargetMeans f S.shapeOf g feeds env t r) targets res.results ∧ res.env = env := by
  obtain ⟨st, hl, hs, hi, hlog, henv', _, hx, hres, _⟩ := eval_ok hw ht h
  rw [hlog] at hx
  obtain ⟨henv, hvals⟩ := execList_means hpure hnw hx (inv_log_needed hi)
  refine ⟨?_, by rw [henv']; exact henv⟩
  refine hres.imp ?_
  intro t r hr
  cases hr with
  | variable_ a b c => exact .variable_ a b (by rw [← henv]; exact c)
  | placeholder a b c => exact .placeholder a b c
  | result a b c => exact .result (hvals _ _ b) c
  | failed a b => exact .failed (hvals _ _ b)

end Eval
end Verif
