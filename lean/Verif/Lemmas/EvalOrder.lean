import Verif.Lemmas.EvalTraversal
import Verif.Lemmas.Training
import Verif.Spec.Order

/-! The evaluator visits op tensors in depth-first order. -/

namespace Verif
open Verif.Spec Relation

namespace Eval
open Graph
variable {Op V E W : Type}

theorem _root_.Verif.Spec.Visits.prefix {g : Graph Op} {d xs d' : List Nat} (h : Visits g d xs d') : ∃ l, d' = d ++ l := by
  induction h with
  | nil => exact ⟨[], by simp⟩
  | skip _ _ ih => exact ih
  | @visit d x n xs d1 d2 _ _ _ _ _ ih1 ih2 =>
    obtain ⟨l1, rfl⟩ := ih1
    obtain ⟨l2, rfl⟩ := ih2
    exact ⟨l1 ++ x :: l2, by simp⟩

theorem _root_.Verif.Spec.Visits.mem {g : Graph Op} {d xs d' : List Nat} (h : Visits g d xs d') {x : Nat} (hx : x ∈ d) : x ∈ d' := by
  obtain ⟨l, rfl⟩ := h.prefix
  exact List.mem_append_left _ hx

theorem _root_.Verif.Spec.Visits.trans {g : Graph Op} {d xs d1 ys d2 : List Nat} (h : Visits g d xs d1) (h' : Visits g d1 ys d2) : Visits g d (xs ++ ys) d2 := by
  induction h with
  | nil => exact h'
  | skip a _ ih => exact .skip a (ih h')
  | visit a b c e _ _ ih2 => exact .visit a b c e (ih2 h')

theorem _root_.Verif.Spec.Visits.split {g : Graph Op} {d xs ys d2 : List Nat} (h : Visits g d (xs ++ ys) d2) : ∃ d1, Visits g d xs d1 ∧ Visits g d1 ys d2 := by
  generalize e : xs ++ ys = zs at h
  induction h generalizing xs with
  | nil =>
    obtain ⟨rfl, rfl⟩ := List.append_eq_nil_iff.1 e
    exact ⟨_, .nil, .nil⟩
  | @skip d x zs d' a hh ih =>
    cases xs with
    | nil => cases e; exact ⟨_, .nil, .skip a hh⟩
    | cons y xs =>
      cases e
      obtain ⟨d1, h1, h2⟩ := ih rfl
      exact ⟨d1, .skip a h1, h2⟩
  | @visit d x n zs d1 d2 a b c e' hh ih1 ih2 =>
    cases xs with
    | nil => cases e; exact ⟨_, .nil, .visit a b c e' hh⟩
    | cons y xs =>
      cases e
      obtain ⟨d3, h1, h2⟩ := ih2 rfl
      exact ⟨d3, .visit a b c e' h1, h2⟩

/-- Everything visited is below one of the tensors. -/
theorem _root_.Verif.Spec.Visits.needed {g : Graph Op} {d xs d' : List Nat} (h : Visits g d xs d') {a : Nat} (ha : a ∈ d') : a ∈ d ∨ Needed g xs a := by
  induction h with
  | nil => exact .inl ha
  | skip _ _ ih =>
    rcases ih ha with h1 | ⟨t, h1, h2⟩
    · exact .inl h1
    · exact .inr ⟨t, by simp [h1], h2⟩
  | @visit d x n zs d1 d2 a b c _ _ ih1 ih2 =>
    rcases ih2 ha with h1 | ⟨t, h1, h2⟩
    · rcases List.mem_append.1 h1 with h1 | h1
      · rcases ih1 h1 with h1 | ⟨t, h1, h2, h3⟩
        · exact .inl h1
        · refine .inr ⟨x, by simp, b, .head ⟨?_, h2⟩ h3⟩
          obtain ⟨i, hi, rfl⟩ := List.mem_map.1 (List.mem_reverse.1 h1)
          exact ⟨n, c, i, hi, rfl⟩
      · rw [List.mem_singleton.1 h1]; exact .inr ⟨x, by simp, b, .refl⟩
    · exact .inr ⟨t, by simp [h1], h2⟩

/-- Passing over tensors. -/
theorem _root_.Verif.Spec.Visits.of_filter {g : Graph Op} {p : Nat → Bool} : ∀ {ys d d' : List Nat}, Visits g d (ys.filter p) d' → (∀ y ∈ ys, p y = false → y ∈ d ∨ ¬ IsOp g y) → Visits g d ys d'
  | [], _, _, h, _ => h
  | y :: ys, d, d', h, hy => by
    by_cases hp : p y = true
    · rw [List.filter_cons, if_pos hp] at h
      cases h with
      | skip a h => exact .skip a (of_filter h fun z hz => hy z (by simp [hz]))
      | visit a b c e h =>
        refine .visit a b c e (of_filter h fun z hz hpz => (hy z (by simp [hz]) hpz).imp (fun h1 => ?_) id)
        exact List.mem_append_left _ (e.mem h1)
    · rw [List.filter_cons, if_neg hp] at h
      exact .skip (hy y (by simp) (by simpa using hp)) (of_filter h fun z hz => hy z (by simp [hz]))

/-- The same with the stack of the evaluator. -/
inductive Works (g : Graph Op) : List Nat → List (Nat × Bool) → List Nat → Prop where
  | nil {d} : Works g d [] d
  | expand {d x d1 rest d2} : Visits g d [x] d1 → Works g d1 rest d2 → Works g d ((x, false) :: rest) d2
  | skip {d x rest d2} : x ∈ d ∨ ¬ IsOp g x → Works g d rest d2 → Works g d ((x, true) :: rest) d2
  | run {d x rest d2} : x ∉ d → IsOp g x → Works g (d ++ [x]) rest d2 → Works g d ((x, true) :: rest) d2

theorem Works.falses {g : Graph Op} {s : List (Nat × Bool)} {d2 : List Nat} : ∀ {ys d : List Nat}, Works g d (ys.map (fun c => (c, false)) ++ s) d2 →
    ∃ d1, Visits g d ys d1 ∧ Works g d1 s d2
  | [], d, h => ⟨d, .nil, h⟩
  | y :: ys, d, h => by
    cases h with
    | expand h1 h2 =>
      obtain ⟨d3, h3, h4⟩ := falses h2
      exact ⟨d3, h1.trans h3, h4⟩

theorem Works.mem {g : Graph Op} {d s d'} (h : Works g d s d') {x : Nat} (hx : x ∈ d) : x ∈ d' := by
  induction h with
  | nil => exact hx
  | expand h1 _ ih => exact ih (h1.mem hx)
  | skip _ _ ih => exact ih hx
  | run _ _ _ ih => exact ih (List.mem_append_left _ hx)

theorem childrenToPush_filter {g : Graph Op} {s : Storage V E} (p : Nat → Bool) (hp : ∀ c, p c = true ↔ IsOp g c ∧ s c = none) : ∀ {is : List Incoming} {cs : List Nat},
    childrenToPush g s is = .ok cs → cs = (is.map Incoming.id).filter p
  | [], cs, h => by cases h; rfl
  | i :: is, cs, h => by
    simp only [childrenToPush, bind_ok] at h
    obtain ⟨n, hn, rest, hr, h⟩ := h
    cases h
    have hn := access_ok.1 hn
    rw [childrenToPush_filter p hp hr, List.map_cons, List.filter_cons]
    have := wouldNotVisit_iff hn s
    by_cases hw : wouldNotVisit n i.id s = true
    · rw [if_pos hw, if_neg]
      intro h1
      obtain ⟨h2, h3⟩ := (hp _).1 h1
      rcases this.1 hw with h4 | h4
      · exact h4 h2
      · rw [h3] at h4; cases h4
    · rw [if_neg hw, if_pos]
      rw [hp]
      refine ⟨Classical.not_not.1 fun h => hw (this.2 (.inl h)), ?_⟩
      cases h : s i.id with
      | none => rfl
      | some r => exact absurd (this.2 (.inr (by simp [h]))) hw

/-- In dependency order nothing uses itself. -/
theorem inDependencyOrder_irrefl {g : Graph Op} {l : List Nat} (h : InDependencyOrder g l) (hnd : l.Nodup) {x : Nat} (hx : x ∈ l) : ¬ TransGen (Uses g) x x := by
  intro hxx
  obtain ⟨pre, post, rfl⟩ := List.append_of_mem hx
  have hpre : InDependencyOrder g pre := inDependencyOrder_prefix h
  obtain ⟨b, h1, h2⟩ := TransGen.head'_iff.1 hxx
  have hb := h pre x post rfl b h1
  have : x ∈ pre := by
    rcases ReflTransGen.cases_head h2 with rfl | ⟨c, h3, h4⟩
    · exact hb
    · exact inDependencyOrder_closed hpre hb (TransGen.head' h3 h4)
  exact (List.nodup_append.1 hnd).2.2 x this x (by simp) rfl

theorem loop_works {S : Sem Op V E W} {g : Graph Op} {feeds : List (Feed V)} (hw : WF g) {targets : List Nat} : ∀ (fuel : Nat) (st st' : EvalState V E W), Inv g targets st →
    loop S g feeds fuel st = some (.ok st') → Works g (st.log.map Prod.fst).reverse st.stack (st'.log.map Prod.fst).reverse := by
  intro fuel
  induction fuel with
  | zero =>
    intro st st' hi h
    unfold loop at h
    split at h
    · rename_i hs; cases h; rw [hs]; exact .nil
    · cases h
  | succ fuel ih =>
    intro st st' hi h
    have hfin := (loop_inv (Inv g targets) (fun a b e rest hs hP h1 => inv_step hw hs hP h1) _ _ _ hi h).1
    unfold loop at h
    split at h
    · rename_i hs; cases h; rw [hs]; exact .nil
    · rename_i e rest hs
      simp only at h
      split at h
      · cases h
      rename_i st1 h1
      have hi1 := inv_step hw hs hi h1
      have key := ih st1 st' hi1 h
      obtain ⟨x, b⟩ := e
      rw [hs]
      simp only [step, bind_ok] at h1
      obtain ⟨n, hn, h1⟩ := h1
      have hn := access_ok.1 hn
      split at h1
      · rename_i hb
        subst hb
        rcases visit_ok h1 with ⟨hwn, rfl⟩ | ⟨hwn, hs1, r, b, hsto, hlog, _⟩
        · refine .skip ?_ key
          rcases (wouldNotVisit_iff hn st.storage).1 hwn with h2 | h2
          · exact .inr h2
          · left; simpa using (hi.stored x).1 h2
        · have hwn' : ¬ (¬ IsOp g x ∨ (st.storage x).isSome = true) := by
            intro h'; rw [(wouldNotVisit_iff hn st.storage).2 h'] at hwn; cases hwn
          rw [hlog, hs1] at key
          refine .run (fun h2 => hwn' (.inr ((hi.stored x).2 (by simpa using h2)))) (Classical.not_not.1 fun h => hwn' (.inl h)) (by simpa using key)
      · rename_i hb
        have hb : b = false := by simpa using hb
        subst hb
        simp only [bind_ok] at h1
        obtain ⟨cs, hcs, h1⟩ := h1
        cases h1
        classical
        have hcs' := childrenToPush_filter (fun c => decide (IsOp g c ∧ st.storage c = none)) (fun c => by simp) hcs
        simp only [← List.map_reverse (f := fun c : Nat => (c, false))] at key
        obtain ⟨d1, hv, hk⟩ := key.falses
        by_cases hx : x ∈ (st.log.map Prod.fst).reverse ∨ ¬ IsOp g x
        · have hnil : cs = [] := by
            rw [List.eq_nil_iff_forall_not_mem]
            intro c hc
            rw [hcs', List.mem_filter] at hc
            obtain ⟨h2, h3⟩ := hc
            obtain ⟨i, hi', rfl⟩ := List.mem_map.1 h2
            simp only [decide_eq_true_eq] at h3
            have hu : Uses g x i.id := ⟨⟨n, hn, i, hi', rfl⟩, h3.1⟩
            rcases hx with hx | hx
            · have := (hi.stored i.id).2 (topoLog_closed hi.topo (by simpa using hx) hu)
              rw [h3.2] at this; cases this
            · exact hx (uses_isOp_left hw hu)
          subst hnil
          cases hv
          refine .expand (.skip hx .nil) ?_
          cases hk with
          | skip _ h => exact h
          | run a b _ => exact absurd hx (by simp only [not_or, Classical.not_not]; exact ⟨a, b⟩)
        · simp only [not_or, Classical.not_not] at hx
          have hvis : Visits g (st.log.map Prod.fst).reverse (n.incoming.map Incoming.id).reverse d1 := by
            rw [hcs', ← List.filter_reverse] at hv
            refine hv.of_filter fun y hy hp => ?_
            simp only [decide_eq_false_iff_not, not_and] at hp
            by_cases ho : IsOp g y
            · left
              have : (st.storage y).isSome = true := by
                cases h : st.storage y with
                | none => exact absurd h (hp ho)
                | some r => rfl
              simpa using (hi.stored y).1 this
            · exact .inr ho
          cases hk with
          | run a b h2 => exact .expand (.visit hx.1 hx.2 hn hvis .nil) h2
          | skip a h2 =>
            exfalso
            rcases a with a | a
            · have hxf := h2.mem a
              rcases hvis.needed a with h3 | ⟨t, h3, h4, h5⟩
              · exact hx.1 h3
              · obtain ⟨i, hi', rfl⟩ := List.mem_map.1 (List.mem_reverse.1 h3)
                have hu : Uses g x i.id := ⟨⟨n, hn, i, hi', rfl⟩, h4⟩
                exact inDependencyOrder_irrefl (topoLog_order hfin.topo) (List.nodup_reverse.2 hfin.nodup) hxf (TransGen.head' hu h5)
            · exact a hx.2

/-- The log of an evaluation. -/
theorem eval_visits {S : Sem Op V E W} {g : Graph Op} (hw : WF g) {feeds : List (Feed V)} {fuel : Nat} {targets : List Nat} {env : List V} {w : W} {res : EvalResult V E W}
    (ht : ∀ t ∈ targets, t < g.nodes.length) (h : eval S g fuel targets feeds env w = some (.ok res)) : Visits g [] targets.reverse (res.log.map Prod.fst) := by
  unfold eval at h
  split at h
  · cases h
  · cases h
  · rename_i st hl
    split at h
    · cases h
    · cases h
      have := loop_works hw fuel _ st (inv_init ht env w) hl
      simp only [initState, ← List.map_reverse] at this
      rw [← List.append_nil (List.map (fun t => (t, false)) targets.reverse)] at this
      obtain ⟨d1, h1, h2⟩ := this.falses
      cases h2
      simpa using h1

theorem _root_.Verif.Spec.Visits.unique {g : Graph Op} {d xs d1 d2 : List Nat} (h1 : Visits g d xs d1) (h2 : Visits g d xs d2) : d1 = d2 := by
  induction h1 generalizing d2 with
  | nil => cases h2; rfl
  | skip a _ ih =>
    cases h2 with
    | skip _ h => exact ih h
    | visit b c _ _ _ => exact absurd a (by simp only [not_or, Classical.not_not]; exact ⟨b, c⟩)
  | visit a b c _ _ ih1 ih2 =>
    cases h2 with
    | skip e _ => exact absurd e (by simp only [not_or, Classical.not_not]; exact ⟨a, b⟩)
    | visit _ _ c' h3 h4 =>
      rw [c] at c'; cases c'
      cases ih1 h3
      exact ih2 h4

theorem _root_.Verif.Spec.Visits.idem {g : Graph Op} {d : List Nat} : ∀ {xs : List Nat}, (∀ x ∈ xs, x ∈ d ∨ ¬ IsOp g x) → Visits g d xs d
  | [], _ => .nil
  | x :: _, h => .skip (h x (by simp)) (idem fun y hy => h y (by simp [hy]))

/-- What has been visited is closed under use, and contains the tensors. -/
theorem _root_.Verif.Spec.Visits.covers {g : Graph Op} {d xs d' : List Nat} (h : Visits g d xs d') (hd : ∀ a ∈ d, ∀ b, Uses g a b → b ∈ d) :
    (∀ a ∈ d', ∀ b, Uses g a b → b ∈ d') ∧ ∀ x ∈ xs, IsOp g x → x ∈ d' := by
  induction h with
  | nil => exact ⟨hd, by simp⟩
  | skip a hh ih =>
    obtain ⟨h1, h2⟩ := ih hd
    refine ⟨h1, fun x hx ho => ?_⟩
    rcases List.mem_cons.1 hx with rfl | hx
    · exact hh.mem (a.resolve_right (fun h => h ho))
    · exact h2 x hx ho
  | @visit d x n zs d1 d2 a b c e hh ih1 ih2 =>
    obtain ⟨h1, h2⟩ := ih1 hd
    have hc : ∀ a ∈ d1 ++ [x], ∀ b, Uses g a b → b ∈ d1 ++ [x] := by
      intro y hy z hz
      rcases List.mem_append.1 hy with hy | hy
      · exact List.mem_append_left _ (h1 y hy z hz)
      · rw [List.mem_singleton.1 hy] at hz
        obtain ⟨⟨n', hn', i, hi, rfl⟩, ho⟩ := hz
        rw [c] at hn'; cases hn'
        exact List.mem_append_left _ (h2 _ (by simp; exact ⟨i, hi, rfl⟩) ho)
    obtain ⟨h3, h4⟩ := ih2 hc
    refine ⟨h3, fun y hy ho => ?_⟩
    rcases List.mem_cons.1 hy with rfl | hy
    · exact hh.mem (by simp)
    · exact h4 y hy ho

theorem _root_.Verif.Spec.Visits.mem_iff {g : Graph Op} {xs d : List Nat} (h : Visits g [] xs d) (a : Nat) : a ∈ d ↔ Needed g xs a := by
  obtain ⟨h1, h2⟩ := h.covers (by simp)
  refine ⟨fun ha => (h.needed ha).resolve_left (by simp), ?_⟩
  rintro ⟨t, ht, ho, hta⟩
  have := h2 t ht ho
  clear ho ht
  induction hta with
  | refl => exact this
  | tail _ h3 ih => exact h1 _ ih _ h3

/-- A visited tensor, and what is visited up to it. -/
theorem _root_.Verif.Spec.Visits.at {g : Graph Op} {before after d : List Nat} {u : Nat} (h : Visits g [] (before ++ u :: after) d) (ho : IsOp g u) (hu : ¬ Needed g before u) :
    ∃ l1 l2, d = l1 ++ u :: l2 ∧ Visits g [] (before ++ [u]) (l1 ++ [u]) ∧ ∀ a, (a ∈ l1 ∨ a = u) ↔ Needed g (before ++ [u]) a := by
  obtain ⟨d0, h1, h2⟩ := h.split
  have hu0 : u ∉ d0 := fun h => hu ((h1.mem_iff u).1 h)
  cases h2 with
  | skip a _ => exact absurd a (by simp [hu0, ho])
  | @visit _ _ n _ d1 _ a b c e hh =>
    obtain ⟨l, rfl⟩ := hh.prefix
    have hv : Visits g [] (before ++ [u]) (d1 ++ [u]) := h1.trans (.visit a b c e .nil)
    exact ⟨d1, l, by simp, hv, fun x => by rw [← hv.mem_iff]; simp⟩

/-- The inputs of the first tensor can be visited beforehand. -/
theorem _root_.Verif.Spec.Visits.inputs_first {g : Graph Op} {x : Nat} {xs d : List Nat} {n : Node Op} (h : Visits g [] (x :: xs) d) (hnd : d.Nodup) (ho : IsOp g x)
    (hn : g.nodes[x]? = some n) : Visits g [] ((n.incoming.map Incoming.id).reverse ++ x :: xs) d := by
  cases h with
  | skip a _ => exact absurd a (by simp [ho])
  | @visit _ _ n' _ d1 _ a b c e hh =>
    rw [hn] at c; cases c
    refine e.trans (.visit ?_ ho hn (.idem fun y hy => ?_) hh)
    · obtain ⟨l, rfl⟩ := hh.prefix
      intro hx
      exact (List.nodup_append.1 (List.nodup_append.1 hnd).1).2.2 x hx x (by simp) rfl
    · by_cases hy' : IsOp g y
      · exact .inl ((e.covers (by simp)).2 y hy hy')
      · exact .inr hy'

/-- Clean ops that read a variable only before it is written compute their meanings at the start of the evaluation. -/
theorem execList_clean {f : Op → List (OpInput V) → Option (Except E (List V))} {S : Sem Op V E W} {g : Graph Op} {feeds : List (Feed V)} {env : List V} {w : W}
    {s' : ExecState V E W} {l : List (Nat × Bool)} (h : ExecList S g feeds (.start env w) l s')
    (hpure : ∀ (a : Nat) (n : Node Op), a ∈ l.map Prod.fst → Clean g a → g.nodes[a]? = some n → Computes S n.op (f n.op))
    (hlate : ∀ pre u post a vid, l.map Prod.fst = pre ++ u :: post → a ∈ post → Clean g a → MayWrite g u vid → ¬ ReadsVar g a vid) :
    ∀ k r, Clean g k → s'.results k = some r → Means f S.shapeOf g feeds env k r := by
  induction h with
  | nil => simp [ExecState.start]
  | @snoc l s1 e s2 hh h1 ih =>
    have ih := ih (fun a n ha => hpure a n (by simp at ha ⊢; exact .inl ha)) (fun pre u post a vid he ha => hlate pre u (post ++ [e.1]) a vid (by rw [List.map_append, he]; simp)
      (by simp [ha]))
    have henv : ∀ vid, Clean g e.1 → ReadsVar g e.1 vid → env[vid]? = s1.env[vid]? := by
      intro vid hc hr
      refine (execList_frame hh ?_).symm
      intro u hu hm
      obtain ⟨pre, post, rfl⟩ := List.append_of_mem hu
      exact hlate (pre.map Prod.fst) u (post.map Prod.fst ++ [e.1]) e.1 vid (by simp) (by simp) hc hm hr
    have hdown : ∀ {a b}, Clean g a → Uses g a b → Clean g b := fun hc hu c vid hcb => hc c vid (.head hu hcb)
    intro k r hkc hk
    cases h1 with
    | @run id n cv xs w1 ws ys st r' env1 hn ho hcv hin hc hr he =>
      simp only at hk
      split at hk
      · rename_i hk'; subst hk'; cases hk
        refine .run hn ho (fun b hb => ih b _ (hdown hkc hb) (hcv b hb))
          (inputsAre_congr (fun i hi m vid hm hv => henv vid hkc ⟨n, hn, i, hi, m, hm, hv⟩) hin) ?_
        rw [← hpure _ _ (by simp) hkc hn, hc]; exact hr
      · exact ih k r hkc hk
    | @skip id n cv er hn ho hcv hin =>
      simp only at hk
      split at hk
      · rename_i hk'; subst hk'; cases hk
        exact .fail hn ho (fun b hb => ih b _ (hdown hkc hb) (hcv b hb))
          (inputsAre_congr (fun i hi m vid hm hv => henv vid hkc ⟨n, hn, i, hi, m, hm, hv⟩) hin)
      · exact ih k r hkc hk

theorem first_split {x : Nat} : ∀ {l : List Nat}, x ∈ l → ∃ l1 l2, l = l1 ++ x :: l2 ∧ x ∉ l1
  | y :: l, h => by
    by_cases hy : y = x
    · exact ⟨[], l, by simp [hy], by simp⟩
    · obtain ⟨l1, l2, rfl, h2⟩ := first_split (List.mem_of_ne_of_mem (Ne.symm hy) h)
      exact ⟨y :: l1, l2, rfl, by simp [h2, Ne.symm hy]⟩

theorem uses_isOp_left' {g : Graph Op} (hw : WF g) {u : Nat} {n : Node Op} {i : Incoming} (hn : g.nodes[u]? = some n) (hi : i ∈ n.incoming) : IsOp g u := by
  rw [isOp_iff hn]
  cases hl : n.isLeafInput with
  | false => rfl
  | true => have := hw.leafSource _ _ hn hl; simp [this] at hi

theorem mayWrite_isOp {g : Graph Op} (hw : WF g) {u vid : Nat} (h : MayWrite g u vid) : IsOp g u := by
  obtain ⟨n, hn, i, hi, _⟩ := h
  exact uses_isOp_left' hw hn hi

/-- Nothing clean that reads a variable comes after a writer. -/
theorem readsFirst_late {g : Graph Op} (hw : WF g) {todo d : List Nat} (hv : Visits g [] todo d) (hnd : d.Nodup) (hwr : ∀ a vid, a ∈ d → MayWrite g a vid → a ∈ todo)
    (hrf : ReadsFirst g todo) : ∀ pre u post a vid, d = pre ++ u :: post → a ∈ post → Clean g a → MayWrite g u vid → ¬ ReadsVar g a vid := by
  intro pre u post a vid he ha hc hm hr
  obtain ⟨before, after, rfl, hub⟩ := first_split (hwr u vid (by rw [he]; simp) hm)
  obtain ⟨hnb, hall⟩ := hrf before u after vid rfl hub hm
  obtain ⟨l1, l2, e, _, hiff⟩ := hv.at (mayWrite_isOp hw hm) hnb
  have hpre : l1 = pre ∧ l2 = post := by
    rw [e] at he hnd
    rcases List.append_eq_append_iff.1 he with ⟨m, h1, h2⟩ | ⟨m, h1, h2⟩
    · cases m with
      | nil => simp at h1 h2; exact ⟨h1.symm, h2⟩
      | cons y m => simp at h2; rw [h2.2] at hnd; simp [List.nodup_append] at hnd
    · cases m with
      | nil => simp at h1 h2; exact ⟨h1, h2.symm⟩
      | cons y m => simp at h2; subst h1; rw [← h2.1] at hnd; simp [List.nodup_append] at hnd
  obtain ⟨rfl, rfl⟩ := hpre
  have ha' : a ∈ d := by rw [e]; simp [ha]
  have hna : ¬ (a ∈ l1 ∨ a = u) := by
    rw [e, List.nodup_append] at hnd
    rintro (h | rfl)
    · exact hnd.2.2 a h a (by simp [ha]) rfl
    · exact (List.nodup_cons.1 hnd.2.1).1 ha
  rw [hiff] at hna
  obtain ⟨t, h1, h2, h3⟩ := (hv.mem_iff a).1 ha'
  rcases List.mem_append.1 h1 with h4 | h4
  · exact hna ⟨t, by simp [h4], h2, h3⟩
  · rcases List.mem_cons.1 h4 with h4 | h4
    · exact hna ⟨t, by simp [h4], h2, h3⟩
    · exact hna (hall a ⟨t, h4, h2, h3⟩ hc hr)

/-- With reads first, gradients and other results have their meanings at the start of the evaluation. `todo` are the tensors in the order in which they are visited. -/
theorem readsFirst_means {f : Op → List (OpInput V) → Option (Except E (List V))} {S : Sem Op V E W} {g : Graph Op} (hw : WF g) {feeds : List (Feed V)} {env : List V} {w : W}
    {s' : ExecState V E W} {log : List (Nat × Bool)} (h : ExecList S g feeds (.start env w) log s') {todo : List Nat} (hv : Visits g [] todo (log.map Prod.fst))
    (hnd : (log.map Prod.fst).Nodup) (hpure : ∀ (a : Nat) (n : Node Op), Needed g todo a → Clean g a → g.nodes[a]? = some n → Computes S n.op (f n.op))
    (hwr : ∀ a vid, Needed g todo a → MayWrite g a vid → a ∈ todo) (hrf : ReadsFirst g todo) :
    (∀ k r, Clean g k → s'.results k = some r → Means f S.shapeOf g feeds env k r) ∧
    ∀ u (gr : Incoming) (n : Node Op) x, u ∈ todo → g.nodes[u]? = some n → gr ∈ n.incoming → (IsOp g gr.id → Clean g gr.id) →
      (∀ m vid before u' after, g.nodes[gr.id]? = some m → m.variableId = some vid → todo = before ++ u' :: after → u' ∉ before → u' ≠ u → u ∈ after → ¬ MayWrite g u' vid) →
      InputRead S g feeds env w log u gr x → InputMeans f S.shapeOf g feeds env gr x := by
  have hlate := readsFirst_late hw hv hnd (fun a vid ha => hwr a vid ((hv.mem_iff a).1 ha)) hrf
  refine ⟨execList_clean h (fun a n ha => hpure a n ((hv.mem_iff a).1 ha)) hlate, ?_⟩
  rintro u gr n x hut hn hgr hcl hvar ⟨pre, post, s1, cv, kind, e, i1, i2, i3⟩
  have hsnap := execList_clean (f := f) i1 (fun a n ha => hpure a n ((hv.mem_iff a).1 (by rw [e]; simp at ha ⊢; exact .inl ha)))
    (fun p u' q a vid hp ha => hlate p u' (q ++ u :: post.map Prod.fst) a vid (by rw [e, List.map_append, hp]; simp) (by simp [ha]))
  refine ⟨cv, kind, fun ho => hsnap gr.id _ (hcl ho) (i2 _ ⟨⟨n, hn, gr, hgr, rfl⟩, ho⟩), inputIs_congr (fun m vid hm hvid => ?_) i3⟩
  refine (execList_frame i1 ?_).symm
  intro a ha hmw
  have hau : a ≠ u := by
    rintro rfl
    rw [e, List.map_append, List.nodup_append] at hnd
    exact hnd.2.2 a (List.mem_map.2 ⟨_, ha, rfl⟩) a (by simp) rfl
  have hal : a ∈ log.map Prod.fst := by rw [e]; exact List.mem_map.2 ⟨(a, true), by simp [ha], rfl⟩
  obtain ⟨before, after, rfl, hab⟩ := first_split (hwr a vid ((hv.mem_iff a).1 hal) hmw)
  obtain ⟨hnb, _⟩ := hrf before a after vid rfl hab hmw
  by_cases hub : u ∈ before
  · -- `u` is visited before `a`
    obtain ⟨d0, h1, h2⟩ := hv.split
    obtain ⟨l, hl⟩ := h2.prefix
    have huo : IsOp g u := uses_isOp_left' hw hn hgr
    have hud : u ∈ d0 := (h1.mem_iff u).2 ⟨u, hub, huo, .refl⟩
    obtain ⟨d1, d2, rfl⟩ := List.append_of_mem hud
    rw [e, List.map_append, List.map_cons] at hl hnd
    have hpre : pre.map Prod.fst = d1 := by
      have hl' : pre.map Prod.fst ++ u :: post.map Prod.fst = d1 ++ u :: (d2 ++ l) := by simpa using hl
      rcases List.append_eq_append_iff.1 hl' with ⟨m, h3, h4⟩ | ⟨m, h3, h4⟩
      · cases m with
        | nil => simpa using h3.symm
        | cons y m => simp at h4; rw [h4.2] at hnd; simp [List.nodup_append] at hnd
      · cases m with
        | nil => simpa using h3
        | cons y m => simp at h4; rw [h3, ← h4.1] at hnd; simp [List.nodup_append] at hnd
    have : a ∈ d1 ++ u :: d2 := by rw [← hpre]; exact List.mem_append_left _ (List.mem_map.2 ⟨_, ha, rfl⟩)
    exact hnb ((h1.mem_iff a).1 this)
  · have : u ∈ after := by
      rcases List.mem_append.1 hut with h1 | h1
      · exact absurd h1 hub
      · rcases List.mem_cons.1 h1 with h1 | h1
        · exact absurd h1.symm hau
        · exact h1
    exact hvar m vid before a after hm hvid rfl hab hau this hmw

end Eval
end Verif
