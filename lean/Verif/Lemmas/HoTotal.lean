import Verif.Lemmas.HoMeaning
import Verif.Lemmas.GradCount
import Verif.Lemmas.GradThin

/-! Programs that call `grad` return, unless the graph gets too large. -/

namespace Verif.Prog
open Verif Verif.Graph Verif.Nd Verif.Hint Verif.Gradient Verif.Spec Verif.Eval

/-! ## More iterations do not change the outcome -/

theorem grad_mono {Op : Type} {O : GradOps Op} {pick : Graph Op → List Nat → Nat} {fuel fuel' : Nat} {g : Graph Op} {ys xs : List Nat} {r}
    (h : grad O pick fuel g ys xs = some r) (hf : fuel ≤ fuel') : grad O pick fuel' g ys xs = some r := by
  unfold grad at h ⊢
  split
  · rename_i he; rw [if_pos he] at h; exact h
  rename_i he
  rw [if_neg he] at h
  cases h0 : sumAlls O g ys with
  | error p => rw [h0] at h; exact h
  | ok v =>
    obtain ⟨g0, sys⟩ := v
    rw [h0] at h
    simp only at h ⊢
    have key : ∀ {r}, computeGradients O pick fuel g0 sys xs none = some r → computeGradients O pick fuel' g0 sys xs none = some r := by
      intro r hr
      unfold computeGradients at hr ⊢
      cases hm : initMap g0 sys xs fuel with
      | none => rw [hm] at hr; cases hr
      | some m =>
        have hm' : initMap g0 sys xs fuel' = some m := initLoop_mono hm hf
        rw [hm] at hr
        rw [hm']
        cases m with
        | error p => exact hr
        | ok m =>
          simp only at hr ⊢
          split
          · rename_i p hp; rw [hp] at hr; exact hr
          · rename_i g' m' hp
            rw [hp] at hr
            exact bpLoop_mono hr hf
    cases hc : computeGradients O pick fuel g0 sys xs none with
    | none => rw [hc] at h; cases h
    | some r' => rw [key hc]; rw [hc] at h; exact h

/-! ## The calls -/

theorem static_lt {g : Graph POp} {t : Nat} (h : Static g t) : t < g.nodes.length := by
  have key : ∀ {op zs}, IsApp g t op zs → t < g.nodes.length := by
    rintro op zs ⟨nd, a, _⟩
    exact (List.getElem?_eq_some_iff.1 a).1
  cases h with
  | shape h => exact key h
  | size h => exact key h
  | app h _ => exact key h

section
variable {F : List (Feed (Arr ℝ))} {N : List (Arr ℝ)}

theorem SInv.hintsIn {B : Bool} {g : Graph POp} (hi : SInv B F N g) : HintsIn g := fun x n s hn hs => static_lt (hi.hints x n s hn hs)

theorem sOk_arity {B : Bool} {op : POp} {xs : List Nat} {vs : List (Arr ℝ)} (h : SOk B op vs) (hl : xs.length = vs.length) : Arity op xs := by
  unfold SOk at h
  split at h
  all_goals first
    | exact h.elim
    | trivial
    | skip
  all_goals
    match xs, hl with
    | [], hl => trivial
    | [_], hl => first | trivial | cases hl
    | [_, _], hl => first | trivial | cases hl
    | _ :: _ :: _ :: _, hl => cases hl

/-- Graphs whose gradients can be differentiated again, without `abs` and `sign`. -/
theorem SInv.progShape {g : Graph POp} (hi : SInv false F N g) (X : List Nat) : ProgShape g X := by
  refine ⟨hi.closed, hi.bpDag, hi.hintsIn, fun _ _ _ _ _ _ => trivial, fun k n _ hn hl => ?_, fun k n _ hn => ?_⟩
  · cases hi.node k n hn with
    | leaf _ h => exact h
    | app h =>
      exact absurd ⟨n, hn, hl⟩ (not_leaf h)
  · cases hi.node k n hn with
    | leaf h1 h2 h3 => exact .inl ⟨h1, h2, by simp [Node.bpInputs, h2, h3]⟩
    | @app xs vs h1 h2 h3 h4 h5 h6 =>
      have hin : n.incoming = xs.map inp := by
        obtain ⟨nd, a, b, c, _⟩ := h1
        rw [hn] at a; cases a; exact c
      refine .inr ⟨xs, hin, hi.bpInputs hn, .inl (sOk_arity h4 h3.length_eq), fun h => h.elim (fun h => h6.2 (.inl h)) fun h => h.elim (fun h => h6.2 (.inr h)) fun h => by rw [h] at h4; exact h4.elim, fun a ha => (h5 a ?_).still X⟩
      have hsign : n.op ≠ .un .sign := by
        intro e
        rw [e] at h4
        unfold SOk at h4
        split at h4
        all_goals first
          | exact h4.elim
          | contradiction
          | skip
        rename_i e'
        rcases h4.2.2.2 with h | h
        · cases h
        · exact h.2 (by injection e' with e'; exact e'.symm)
      have hexp : n.op ≠ .expandDims := by
        intro e
        rw [e] at h4
        unfold SOk at h4
        split at h4 <;> first | exact h4 | contradiction
      have harg : ∀ bot lay axis keep, n.op ≠ .argMax bot lay axis keep := by
        intro _ _ _ _ e
        rw [e] at h4
        unfold SOk at h4
        split at h4 <;> first | exact h4 | contradiction
      clear h1 h2 h3 h4 h5 h6 hin
      revert ha hsign hexp harg
      generalize n.op = op
      unfold noGrad fixedIn
      intro ha hsign hexp harg
      split at ha
      all_goals first
        | exact ha
        | exact absurd rfl hsign
        | exact absurd rfl hexp
        | exact absurd rfl (harg _ _ _ _)
        | cases ha

/-- A constructor panics only if the graph gets too large. -/
theorem SInv.construct_error {B : Bool} {I : Point} {g : Graph POp} (hi : SInv B (named I.feeds) I.env g) {ids : List Nat} {s : Stmt} {p : Panic}
    (h : construct hintOps g (s.rename (fun k => ids.getD k 0)).ctor = .error p) {val : Nat → Arr ℝ} (hok : CallOk I val s)
    (ha : ∀ a ∈ s.args, ids.getD a 0 < g.nodes.length) (hd : ∀ name d, s = .placeholder name d → ∀ n ∈ d, n = -1 ∨ 0 < n) : p = .graphTooLarge := by
  have hH := hi.hintsIn
  have key : ∀ {c : Ctor POp} {op : POp} {is : List Incoming}, construct hintOps g c = .error p → ctorApp c = some (op, is) → (∀ x ∈ ctorUses c, x < g.nodes.length) → p = .graphTooLarge := by
    intro c op is hc ho hu
    have := (mk_safe ho hu hH).1 (.graph p) (by unfold Prog.mk; rw [hc]; rfl)
    cases this; rfl
  cases s with
  | var vid =>
    simp only [Stmt.rename, Stmt.ctor, construct, variableById] at h
    split at h
    · cases h
    · cases hb : g.build { variableId := some vid } hintOps.varOp with
      | ok v => rw [hb] at h; cases h
      | error q =>
        rw [hb] at h
        cases h
        exact build_error hb (by simp)
  | placeholder name d =>
    have hks : knownShapeNew d = .ok d := by
      unfold knownShapeNew
      rw [if_pos]
      rw [List.all_eq_true]
      intro a h
      rcases hd name d rfl a h with rfl | h
      · rfl
      · simp; right; exact ⟨by omega, by omega⟩
    simp only [Stmt.rename, Stmt.ctor, construct, Graph.placeholder] at h
    cases hp : g.placeholderHint hintOps.constOp d with
    | error q =>
      rw [hp] at h
      cases h
      unfold placeholderHint at hp
      split at hp
      · cases h1 : g.build {} (hintOps.constOp [(d.length : Int)]) with
        | error q' => rw [h1] at hp; cases hp; exact build_error h1 (by simp)
        | ok v =>
          rw [h1] at hp
          simp only [bind, Except.bind] at hp
          split at hp
          · rename_i h2; cases hp; exact build_error h2 (by simp)
          · cases hp
      · cases hp
    | ok v =>
      rw [hp] at h
      simp only [bind, Except.bind, hks] at h
      exact build_error h (by simp)
  | const a => exact key h rfl (by simp [Stmt.rename, Stmt.ctor, ctorUses])
  | scalar c => exact key h rfl (by simp [Stmt.rename, Stmt.ctor, ctorUses])
  | add a b => exact key h rfl (by simpa [Stmt.rename, Stmt.ctor, ctorUses, Stmt.args] using ha)
  | sub a b => exact key h rfl (by simpa [Stmt.rename, Stmt.ctor, ctorUses, Stmt.args] using ha)
  | mul a b => exact key h rfl (by simpa [Stmt.rename, Stmt.ctor, ctorUses, Stmt.args] using ha)
  | div a b => exact key h rfl (by simpa [Stmt.rename, Stmt.ctor, ctorUses, Stmt.args] using ha)
  | un op x =>
    refine key (c := unCtor op (ids.getD x 0)) h (unCtor_app op _) ?_
    cases op <;> simpa [unCtor, ctorUses, Stmt.args] using ha
  | sumAll x => exact key h rfl (by simpa [Stmt.rename, Stmt.ctor, ctorUses, Stmt.args] using ha)
  | addN x y zs =>
    refine key h rfl ?_
    intro z hz
    have hz : z ∈ ids.getD x 0 :: ((ids.getD x 0 :: ids.getD y 0 :: zs.map (fun k => ids.getD k 0)).map inp).map Incoming.id := hz
    rw [ids_map] at hz
    have : z ∈ (x :: y :: zs).map (fun k => ids.getD k 0) := by simpa using hz
    obtain ⟨a, h1, rfl⟩ := List.mem_map.1 this
    exact ha a h1
  | sizeOf x =>
    exact build_error (show g.build { inNodes := [inp (ids.getD x 0)], differentiable := false } .size = .error p from h) (by simpa [Stmt.args] using ha)
  | ident x => exact key h rfl (by simpa [Stmt.rename, Stmt.ctor, ctorUses, Stmt.args] using ha)
  | _ => exact hok.elim

end

/-- How a program for which `b` tensors are enough may end. -/
def EndsWell (b : Nat) (r : Except GPanic (Graph POp × List Nat)) : Prop := (∃ v, r = .ok v ∧ v.1.nodes.length ≤ b) ∨ r = .error (.graph .graphTooLarge) ∧ numNodesCritical < b

theorem room_mono {c : Call} {n n' : Nat} (h : n ≤ n') : Call.room n c ≤ Call.room n' c := by
  cases c <;> simp only [Call.room] <;> omega

theorem room_le {l : List Call} {n : Nat} : n ≤ l.foldl Call.room n := by
  induction l generalizing n with
  | nil => exact le_refl _
  | cons c l ih => exact (show n ≤ Call.room n c by cases c <;> simp only [Call.room] <;> omega).trans ih

theorem rooms_mono {l : List Call} {n n' : Nat} (h : n ≤ n') : l.foldl Call.room n ≤ l.foldl Call.room n' := by
  induction l generalizing n n' with
  | nil => exact h
  | cons c l ih => exact ih (room_mono h)

/-- One call. -/
theorem RunOk.call_total {pick : Graph POp → List Nat → Nat} (hpick : PicksMax pick) {c : Call} {g : Graph POp} {ids : List Nat} {M : Meaning} (h : RunOk false g ids M)
    (hs : (M.add c).wellScoped) {I : Point} (hd : (M.add c).dom I) (hne : ∀ ys xs, c = .grad ys xs → ys ≠ [])
    (hdim : ∀ name d, c = .op (.placeholder name d) → ∀ n ∈ d, n = -1 ∨ 0 < n) : ∃ N r, EndsWell (Call.room g.nodes.length c) r ∧ ∀ fuel, N ≤ fuel → c.exec pick fuel g ids = some r := by
  cases c with
  | op s =>
    obtain ⟨hd, hok⟩ := hd
    have hi := h.inv I hd
    have ha : ∀ a ∈ s.args, ids.getD a 0 < g.nodes.length := fun a ha => by
      obtain ⟨w, e, _⟩ := h.vals I hd a (hs.2.1 a ha)
      exact evals_lt e
    have hcost := (adds_construct (H := hintOps) (g := g) (s.rename (fun k => ids.getD k 0)).ctor).mono (ctorCost_le _)
    simp only [Call.exec]
    cases hc : construct hintOps g (s.rename (fun k => ids.getD k 0)).ctor with
    | ok v => exact ⟨0, _, .inl ⟨(v.1, ids ++ [v.2]), rfl, hcost.ok _ hc⟩, fun _ _ => rfl⟩
    | error p =>
      have := hi.construct_error hc hok ha (fun name d e => hdim name d (by rw [e]))
      subst this
      exact ⟨0, _, .inr ⟨rfl, hcost.err hc⟩, fun _ _ => rfl⟩
  | grad ys xs =>
    have hd : M.dom I := hd
    have hi := h.inv I hd
    have hy : ∀ y ∈ ys.map (fun k => ids.getD k 0), y < g.nodes.length := fun y hy => by
      obtain ⟨k, hk, rfl⟩ := List.mem_map.1 hy
      obtain ⟨w, e, _⟩ := h.vals I hd k (hs.2.1 k hk)
      exact evals_lt e
    obtain ⟨ls, hls, _⟩ := hs.2.2
    have hleaf : ∀ x ∈ xs.map (fun k => ids.getD k 0), IsLeaf g x := fun x hx => by
      obtain ⟨k, hk, rfl⟩ := List.mem_map.1 hx
      obtain ⟨leaf, _, e⟩ := forall₂_mem_left hls hk
      obtain ⟨nd, h1, h2⟩ := h.leavesOk.node k leaf e
      exact h2.isLeaf h1
    obtain ⟨N, hN⟩ := grad_returns_small (hi.progShape _) hpick (by simpa using hne ys xs rfl) hy hleaf
    simp only [List.length_map] at hN
    simp only [Call.exec]
    rcases hN N (le_refl _) with ⟨v, hr, _, hb⟩ | ⟨hr, hb⟩
    · exact ⟨N, _, .inl ⟨(v.g, ids ++ v.grads), rfl, hb⟩, fun fuel hf => by rw [grad_mono hr hf]⟩
    · exact ⟨N, _, .inr ⟨rfl, hb⟩, fun fuel hf => by rw [grad_mono hr hf]⟩

theorem RunOk.execFrom_total {pick : Graph POp → List Nat → Nat} (hpick : PicksMax pick) {l : List Call} {g : Graph POp} {ids : List Nat} {M : Meaning} (h : RunOk false g ids M)
    (hs : (l.foldl Meaning.add M).wellScoped) {I : Point} (hd : (l.foldl Meaning.add M).dom I) (hall : ∀ c ∈ l, c.Allowed false) (hne : ∀ ys xs, .grad ys xs ∈ l → ys ≠ [])
    (hdim : ∀ name d, .op (.placeholder name d) ∈ l → ∀ n ∈ d, n = -1 ∨ 0 < n) : ∃ N r, EndsWell (l.foldl Call.room g.nodes.length) r ∧ ∀ fuel, N ≤ fuel → Prog.execFrom pick fuel l g ids = some r := by
  induction l generalizing g ids M with
  | nil => exact ⟨0, _, .inl ⟨(g, ids), rfl, le_refl _⟩, fun _ _ => rfl⟩
  | cons c l ih =>
    obtain ⟨N, r, hr, hN⟩ := h.call_total hpick (wellScoped_of_foldl hs) (dom_of_foldl (M := M.add c) hd) (fun ys xs e => hne ys xs (by simp [e]))
      (fun name d e => hdim name d (by simp [e]))
    simp only [Prog.execFrom]
    rcases hr with ⟨⟨g1, ids1⟩, rfl, hb⟩ | ⟨rfl, hb⟩
    · obtain ⟨N', r', hr', hN'⟩ := ih (h.exec hpick (hN N (le_refl _)) (wellScoped_of_foldl hs) (hall c (by simp))) hs hd (fun c hc => hall c (by simp [hc]))
        (fun ys xs hm => hne ys xs (by simp [hm])) (fun name d hm => hdim name d (by simp [hm]))
      have hb : g1.nodes.length ≤ _ := hb
      refine ⟨max N N', r', hr'.imp (fun ⟨v, e, h⟩ => ⟨v, e, h.trans (rooms_mono hb)⟩) (fun ⟨e, h⟩ => ⟨e, h.trans_le (rooms_mono hb)⟩), fun fuel hf => ?_⟩
      rw [hN fuel (by omega)]
      exact hN' fuel (by omega)
    · exact ⟨N, _, .inr ⟨rfl, hb.trans_le room_le⟩, fun fuel hf => by rw [hN fuel hf]⟩

end Verif.Prog
