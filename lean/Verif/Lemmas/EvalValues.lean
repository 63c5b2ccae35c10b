import Verif.Lemmas.EvalTermination

/-! Values computed by the evaluator: feeds, inputs, execution in order. -/

namespace Verif
open Spec Relation
variable {Op V E W : Type}

namespace Eval
open Graph

theorem validateShape_iff {known : List Int} {shape : List Nat} (hk : ∀ d ∈ known, d = -1 ∨ 0 < d) :
    validateShape known shape = true ↔ ShapeAccepts known shape := by
  unfold validateShape ShapeAccepts
  induction known generalizing shape with
  | nil =>
    cases shape <;> simp
  | cons a known ih =>
    cases shape with
    | nil => simp
    | cons b shape =>
      have ih := ih (shape := shape) (fun d hd => hk d (by simp [hd]))
      have ha := hk a (by simp)
      by_cases hl : known.length = shape.length
      · simp only [List.length_cons, hl, bne_self_eq_false, Bool.false_eq_true, if_false, List.zip_cons_cons, List.all_cons,
          Bool.and_eq_true, true_and] at ih ⊢
        rw [ih]
        constructor
        · rintro ⟨h1, h2⟩ k d u hd hu
          cases k with
          | zero =>
            simp at hd hu; subst hd hu
            simp at h1; omega
          | succ k => exact h2 k d u (by simpa using hd) (by simpa using hu)
        · intro h
          refine ⟨?_, fun k d u hd hu => h (k + 1) d u (by simpa using hd) (by simpa using hu)⟩
          have := h 0 a b (by simp) (by simp)
          simp; omega
      · simp [hl]

theorem validateKnown_ok {known : Option (List Int)} {shape : List Nat} (hk : KnownOk known) :
    validateKnown known shape = .ok () ↔ ∃ d, known = some d ∧ ShapeAccepts d shape := by
  obtain ⟨s, rfl, hs⟩ := hk
  simp only [validateKnown, Option.some.injEq, exists_eq_left', ← validateShape_iff hs]
  split <;> simp_all

theorem firstFeed_cons_match {id : Nat} {name : String} {f : Feed V} {fs : List (Feed V)} {v : V}
    (h : FeedMatches id name f) : FirstFeed id name (f :: fs) v ↔ f.value = v := by
  constructor
  · rintro ⟨pre, f', post, e, _, hv, hpre⟩
    cases pre with
    | nil => simp at e; rw [e.1]; exact hv
    | cons p pre => simp at e; exact absurd (e.1 ▸ h) (hpre p (by simp))
  · intro hv; exact ⟨[], f, fs, rfl, h, hv, by simp⟩

theorem firstFeed_cons_skip {id : Nat} {name : String} {f : Feed V} {fs : List (Feed V)} {v : V}
    (h : ¬ FeedMatches id name f) : FirstFeed id name (f :: fs) v ↔ FirstFeed id name fs v := by
  constructor
  · rintro ⟨pre, f', post, e, hm, hv, hpre⟩
    cases pre with
    | nil => simp at e; exact absurd (e.1 ▸ hm) h
    | cons p pre => simp at e; exact ⟨pre, f', post, e.2, hm, hv, fun q hq => hpre q (by simp [hq])⟩
  · rintro ⟨pre, f', post, e, hm, hv, hpre⟩
    refine ⟨f :: pre, f', post, by simp [e], hm, hv, fun q hq => ?_⟩
    rcases List.mem_cons.1 hq with rfl | hq
    · exact h
    · exact hpre q hq

theorem findFeed_ok {shapeOf : V → List Nat} {id : Nat} {known : Option (List Int)} {name : String} (hk : KnownOk known) :
    ∀ {feeds : List (Feed V)} {v : V}, findFeed shapeOf id known name feeds = .ok v ↔
      FirstFeed id name feeds v ∧ ∃ d, known = some d ∧ ShapeAccepts d (shapeOf v)
  | [], v => by
    simp only [findFeed]
    constructor
    · intro h; cases h
    · rintro ⟨⟨pre, f, post, e, _⟩, _⟩; simp at e
  | f :: fs, v => by
    have ih := findFeed_ok (shapeOf := shapeOf) (id := id) (name := name) hk (feeds := fs) (v := v)
    have hmatch : ∀ {x : Except Panic V}, FeedMatches id name f →
        (do validateKnown known (shapeOf f.value); .ok f.value : Except Panic V) = x →
        (x = .ok v ↔ FirstFeed id name (f :: fs) v ∧ ∃ d, known = some d ∧ ShapeAccepts d (shapeOf v)) := by
      intro x hm hx
      subst hx
      rw [firstFeed_cons_match hm, bind_ok]
      constructor
      · rintro ⟨_, h1, h2⟩
        cases h2; exact ⟨rfl, (validateKnown_ok hk).1 h1⟩
      · rintro ⟨rfl, h⟩; exact ⟨(), (validateKnown_ok hk).2 h, rfl⟩
    have hskip : ¬ FeedMatches id name f →
        (findFeed shapeOf id known name fs = .ok v ↔ FirstFeed id name (f :: fs) v ∧ ∃ d, known = some d ∧ ShapeAccepts d (shapeOf v)) := by
      intro hm; rw [firstFeed_cons_skip hm, ih]
    unfold findFeed
    cases hkey : f.key with
    | id t =>
      simp only
      split
      · rename_i h; exact hmatch (.inl (by rw [hkey, h])) rfl
      · rename_i h; exact hskip (by rintro (h' | h') <;> rw [hkey] at h' <;> simp at h'; exact h h'.symm)
    | name s =>
      simp only
      split
      · rename_i h; exact hmatch (.inr (by rw [hkey, h])) rfl
      · rename_i h; exact hskip (by rintro (h' | h') <;> rw [hkey] at h' <;> simp at h'; exact h h'.symm)

theorem fedWith_iff {S : Sem Op V E W} {g : Graph Op} (hw : WF g) {feeds : List (Feed V)} {id : Nat} {n : Node Op}
    (hn : g.nodes[id]? = some n) {name : String} (hp : n.placeholderName = some name) {v : V} :
    findFeed S.shapeOf id n.knownShape name feeds = .ok v ↔ FedWith S.shapeOf feeds id n v := by
  rw [findFeed_ok (hw.phKnown id n hn (by simp [hp]))]
  constructor
  · rintro ⟨h1, d, h2, h3⟩; exact ⟨name, d, hp, h2, h1, h3⟩
  · rintro ⟨nm, d, h1, h2, h3, h4⟩
    rw [hp] at h1; cases h1; exact ⟨h3, d, h2, h4⟩

theorem storageGet_ok {s : Storage V E} {key sel : Nat} {r : Except E V} :
    storageGet s key sel = .ok r ↔
      (∃ e, s key = some (.error e) ∧ r = .error e) ∨ (∃ ys y, s key = some (.ok ys) ∧ ys[sel]? = some y ∧ r = .ok y) := by
  unfold storageGet
  cases h : s key with
  | none => simp
  | some x =>
    cases x with
    | error e => simp [eq_comm]
    | ok ys =>
      simp
      cases h' : ys[sel]? with
      | none => simp
      | some y => simp [eq_comm]

theorem gatherOne_ok {S : Sem Op V E W} {g : Graph Op} (hw : WF g) {feeds : List (Feed V)} {s : Storage V E} {env : List V}
    {cv : Nat → Except E (List V)} {i : Incoming} (hcv : IsOp g i.id → s i.id = some (cv i.id)) {r : Except E (OpInput V)} :
    gatherOne S g feeds s env i = .ok r ↔ InputIs S.shapeOf g feeds env cv i r := by
  constructor
  · intro h
    simp only [gatherOne, bind_ok] at h
    obtain ⟨n, hn, h⟩ := h
    have hn := access_ok.1 hn
    split at h
    · rename_i name hp
      simp only [bind_ok] at h
      obtain ⟨v, hv, h⟩ := h
      cases h
      exact .placeholder hn ((fedWith_iff hw hn hp).1 hv)
    · rename_i hp
      split at h
      · rename_i vid hv
        split at h
        · cases h
        · rename_i a ha
          cases h
          exact .variable_ hn hp hv ha
      · rename_i hv
        have hop : IsOp g i.id := ⟨n, hn, hp, hv⟩
        simp only [bind_ok, storageGet_ok, hcv hop] at h
        obtain ⟨r', hr', h⟩ := h
        rcases hr' with ⟨e, h1, rfl⟩ | ⟨ys, y, h1, h2, rfl⟩
        · cases h; exact .failed hop (Option.some.inj h1)
        · cases h; exact .result hop (Option.some.inj h1) h2
  · intro h
    simp only [gatherOne, bind_ok, access_ok]
    cases h with
    | placeholder hn hf =>
      obtain ⟨name, d, hp, _⟩ := id hf
      refine ⟨_, hn, ?_⟩
      simp only [hp, bind_ok]
      exact ⟨_, (fedWith_iff hw hn hp).2 hf, rfl⟩
    | variable_ hn hp hv ha =>
      refine ⟨_, hn, ?_⟩
      simp only [hp, hv, ha]
    | result hop h1 h2 =>
      obtain ⟨n, hn, hp, hv⟩ := id hop
      refine ⟨n, hn, ?_⟩
      simp only [hp, hv, bind_ok, storageGet_ok, hcv hop]
      exact ⟨_, .inr ⟨_, _, by rw [h1], h2, rfl⟩, rfl⟩
    | failed hop h1 =>
      obtain ⟨n, hn, hp, hv⟩ := id hop
      refine ⟨n, hn, ?_⟩
      simp only [hp, hv, bind_ok, storageGet_ok, hcv hop]
      exact ⟨_, .inl ⟨_, by rw [h1], rfl⟩, rfl⟩

theorem gather_ok {S : Sem Op V E W} {g : Graph Op} (hw : WF g) {feeds : List (Feed V)} {s : Storage V E} {env : List V}
    {cv : Nat → Except E (List V)} : ∀ {is : List Incoming}, (∀ i ∈ is, IsOp g i.id → s i.id = some (cv i.id)) →
    ∀ {r : Except E (List (OpInput V))},
    gather S g feeds s env is = .ok r ↔ InputsAre S.shapeOf g feeds env cv is r
  | [], _, r => by
    simp only [gather]
    constructor
    · intro h; cases h; exact .nil
    · intro h; cases h; rfl
  | i :: is, hcv, r => by
    have ih : ∀ {r}, gather S g feeds s env is = .ok r ↔ InputsAre S.shapeOf g feeds env cv is r :=
      gather_ok hw (fun j hj => hcv j (by simp [hj]))
    have h1 : ∀ {r}, gatherOne S g feeds s env i = .ok r ↔ InputIs S.shapeOf g feeds env cv i r :=
      gatherOne_ok hw (hcv i (by simp))
    simp only [gather, bind_ok, h1]
    constructor
    · rintro ⟨x, hx, h⟩
      split at h
      · cases h; exact .first hx
      · simp only [bind_ok, ih] at h
        obtain ⟨xs, hxs, h⟩ := h
        split at h
        · cases h; exact .later hx hxs
        · cases h; exact .cons hx hxs
    · intro h
      cases h with
      | cons hx hxs => exact ⟨_, hx, by simp only [bind_ok, ih]; exact ⟨_, hxs, rfl⟩⟩
      | later hx hxs => exact ⟨_, hx, by simp only [bind_ok, ih]; exact ⟨_, hxs, rfl⟩⟩
      | first hx => exact ⟨_, hx, rfl⟩

theorem writeTarget_iff {g : Graph Op} {n : Node Op} {k vid : Nat} :
    writeTarget g n.incoming k = some vid ↔ WritesVar g n k vid := by
  unfold writeTarget WritesVar
  cases h : n.incoming[k]? with
  | none => simp
  | some i =>
    simp only [Option.some.injEq, exists_and_left, exists_eq_left']
    cases h' : g.nodes[i.id]? with
    | none => simp
    | some m =>
      simp only [Option.some.injEq, exists_eq_left']
      cases hp : m.placeholderName <;> cases hm : i.allowMut <;> simp

theorem applyWrites_envAfter {g : Graph Op} {n : Node Op} : ∀ (ws : List (Nat × V)) (env : List V),
    EnvAfter g n ws env (applyWrites g n.incoming ws env)
  | [], env => by
    refine ⟨rfl, fun vid _ => .inr ⟨by simp, rfl⟩⟩
  | (k, v) :: ws, env => by
    unfold applyWrites
    cases h : writeTarget g n.incoming k with
    | none =>
      obtain ⟨h1, h2⟩ := applyWrites_envAfter (g := g) (n := n) ws env
      refine ⟨h1, fun vid hv => ?_⟩
      have hno : ¬ WritesVar g n k vid := by rw [← writeTarget_iff, h]; simp
      rcases h2 vid hv with ⟨pre, k', v', post, e, h3, h4, h5⟩ | ⟨h3, h4⟩
      · exact .inl ⟨(k, v) :: pre, k', v', post, by simp [e], h3, h4, h5⟩
      · exact .inr ⟨by simpa using ⟨hno, fun a b hab => h3 (a, b) hab⟩, h4⟩
    | some vid0 =>
      obtain ⟨h1, h2⟩ := applyWrites_envAfter (g := g) (n := n) ws (env.set vid0 v)
      refine ⟨by simpa using h1, fun vid hv => ?_⟩
      have hyes := writeTarget_iff.1 h
      rcases h2 vid (by simpa using hv) with ⟨pre, k', v', post, e, h3, h4, h5⟩ | ⟨h3, h4⟩
      · exact .inl ⟨(k, v) :: pre, k', v', post, by simp [e], h3, h4, h5⟩
      · by_cases hvid : vid = vid0
        · subst hvid
          exact .inl ⟨[], k, v, ws, rfl, hyes, h3, by simp only at h4 ⊢; rw [h4]; simp [hv]⟩
        · refine .inr ⟨?_, by simp only at h4 ⊢; rw [h4, List.getElem?_set_ne (Ne.symm hvid)]⟩
          intro p hp
          rcases List.mem_cons.1 hp with rfl | hp
          · intro hwv
            rw [← writeTarget_iff, h] at hwv
            exact hvid (Option.some.inj hwv).symm
          · exact h3 p hp

/-- The evaluator state as seen by the specification. -/
def toExec (st : EvalState V E W) : ExecState V E W := ⟨st.storage, st.env, st.world⟩

theorem exec_of_visit {S : Sem Op V E W} {g : Graph Op} (hw : WF g) {feeds : List (Feed V)} {n : Node Op} {id : Nat}
    {st st' : EvalState V E W} (hn : g.nodes[id]? = some n)
    (hch : ∀ c, Uses g id c → (st.storage c).isSome = true)
    (hwn : wouldNotVisit n id st.storage = false)
    (h : visit S g feeds n id st = .ok st') :
    ∃ b, st'.log = (id, b) :: st.log ∧ ExecOne S g feeds (toExec st) (id, b) (toExec st') := by
  have hop : IsOp g id := by
    by_cases hop : IsOp g id
    · exact hop
    · rw [(wouldNotVisit_iff hn st.storage).2 (.inl hop)] at hwn; cases hwn
  rcases visit_ok h with ⟨h1, _⟩ | ⟨_, _, r, b, hsto, hlog, hcase⟩
  · rw [hwn] at h1; cases h1
  · -- results of used ops, as a total function
    let cv : Nat → Except E (List V) := fun c => match st.storage c with
      | some r => r
      | none => .ok []
    have hcv : ∀ c, Uses g id c → st.storage c = some (cv c) := by
      intro c hc
      have := hch c hc
      simp only [cv]
      cases hs : st.storage c with
      | none => simp [hs] at this
      | some x => rfl
    have hcv' : ∀ i ∈ n.incoming, IsOp g i.id → st.storage i.id = some (cv i.id) :=
      fun i hi ho => hcv i.id ⟨⟨n, hn, i, hi, rfl⟩, ho⟩
    have hst' : toExec st' = ⟨fun k => if k = id then some r else st.storage k, st'.env, st'.world⟩ := by
      simp only [toExec, hsto]; rfl
    refine ⟨b, hlog, ?_⟩
    rw [hst']
    rcases hcase with ⟨rfl, he, hwd, e, rfl, hg⟩ | ⟨rfl, xs, w, ws, ys, status, hg, hc, hd, hwd, he, hr⟩
    · rw [he, hwd]
      exact .skip hn hop hcv ((gather_ok hw hcv').1 hg)
    · rw [he, hwd]
      refine .run (xs := xs) (w := w) (ws := ws) (ys := ys) (status := status) hn hop hcv ((gather_ok hw hcv').1 hg) hc ?_ (applyWrites_envAfter ws st.env)
      simp only [outcomeResult]
      rw [if_neg]
      · rw [hr]; cases status <;> rfl
      · rintro ⟨h1, h2⟩; simp [h1, h2] at hd

/-- The state of the loop is always the result of executing the logged ops in order. -/
theorem execList_step {S : Sem Op V E W} {g : Graph Op} (hw : WF g) {feeds : List (Feed V)} {targets : List Nat}
    {s0 : ExecState V E W} {st st' : EvalState V E W} {e : Nat × Bool} {rest : List (Nat × Bool)} (hstk : st.stack = e :: rest)
    (hi : Inv g targets st) (hx : ExecList S g feeds s0 st.log.reverse (toExec st))
    (h : step S g feeds e { st with stack := rest } = .ok st') :
    ExecList S g feeds s0 st'.log.reverse (toExec st') := by
  obtain ⟨id, b⟩ := e
  simp only [step, bind_ok] at h
  obtain ⟨n, hn, h⟩ := h
  have hn := access_ok.1 hn
  have hpend := hi.pending
  rw [hstk] at hpend
  split at h
  · rename_i hb; subst hb
    rcases visit_ok h with ⟨hwn, rfl⟩ | ⟨hwn, hs, r, b, hsto, hlog, _⟩
    · exact hx
    · obtain ⟨b', hlog', hone⟩ := exec_of_visit hw (st := { st with stack := rest }) hn (by
        intro c hc
        rcases hpend.1 rfl c hc with h1 | h1
        · exact h1
        · simp at h1) hwn h
      rw [hlog']
      simp only [List.reverse_cons]
      exact .snoc hx hone
  · simp only [bind_ok] at h
    obtain ⟨cs, hcs, h⟩ := h
    cases h
    exact hx

end Eval
end Verif
