import Verif.Lemmas.EvalFeeds
import Verif.Lemmas.Reachable
import Verif.Spec.Hooks

/-! Lemmas on hooks. -/

namespace Verif.Eval
open Verif Verif.Spec Verif.Graph Relation

variable {Op V E W T H : Type}

/-- The tensor is that of a hook. -/
def IsHook (g : Graph (HookedOp Op H)) (b : Nat) (h : H) : Prop := ∃ n, g.nodes[b]? = some n ∧ n.op = .hook h

/-- The calls of hooks during an execution. -/
theorem execList_hooks {S : Sem Op V E W} {call : H → V → T → T} {g : Graph (HookedOp Op H)} {feeds : List (Feed V)} {env : List V} {w : W} {t : T} {l : List (Nat × Bool)}
    {s : ExecState V E (W × T)} (h : ExecList (withHooks S call) g feeds (.start env (w, t)) l s) (hn : (l.map Prod.fst).Nodup) :
    ∃ ks : List (Nat × H × V), s.world.2 = ks.foldl (fun t k => call k.2.1 k.2.2 t) t ∧ (ks.map Prod.fst).Sublist (l.map Prod.fst) ∧
      ∀ b c v, (b, c, v) ∈ ks ↔ IsHook g b c ∧ s.results b = some (.ok [v]) := by
  induction h with
  | nil => exact ⟨[], rfl, .slnil, by simp [ExecState.start]⟩
  | @snoc l s1 e s2 hl h1 ih =>
    rw [List.map_append, List.nodup_append] at hn
    obtain ⟨hn1, -, hn2⟩ := hn
    obtain ⟨ks, k1, k2, k3⟩ := ih hn1
    have hnot : ∀ c v, (e.1, c, v) ∉ ks := fun c v hm => hn2 _ (k2.mem (List.mem_map_of_mem (f := Prod.fst) hm)) e.1 (by simp) rfl
    cases h1 with
    | @run id n cv xs w' ws ys status r env' hnd ho _ _ hc hr _ =>
      cases hop : n.op with
      | op o =>
        refine ⟨ks, ?_, by simpa using k2.trans (List.sublist_append_left _ _), fun b c v => ?_⟩
        · have : w'.2 = s1.world.2 := by
            rw [hop] at hc
            simp only [withHooks] at hc
            split at hc
            · cases hc
            · cases hc; rfl
          exact this.trans k1
        · by_cases hb : b = id
          · subst hb
            refine iff_of_false (hnot c v) ?_
            rintro ⟨⟨m, hm, hm'⟩, -⟩
            rw [hnd] at hm; cases hm
            rw [hop] at hm'; cases hm'
          · simpa [hb] using k3 b c v
      | hook c0 =>
        rw [hop] at hc
        match xs, hc with
        | x :: xs, hc =>
          cases hc
          have hr' : r = .ok [x.val] := by
            simp only [outcomeResult, reduceCtorEq, and_false, if_false, Option.some.injEq] at hr
            exact hr.symm
          subst hr'
          refine ⟨ks ++ [(id, c0, x.val)], by rw [List.foldl_append, ← k1]; rfl, ?_, fun b c v => ?_⟩
          · rw [List.map_append, List.map_append]
            exact k2.append (List.Sublist.refl _)
          · by_cases hb : b = id
            · subst hb
              have := hnot c v
              simp only [List.mem_append, this, false_or, List.mem_singleton, Prod.mk.injEq, true_and, if_true, Option.some.injEq, Except.ok.injEq, List.cons.injEq, and_true]
              constructor
              · rintro ⟨rfl, rfl⟩; exact ⟨⟨n, hnd, hop⟩, rfl⟩
              · rintro ⟨⟨m, hm, hm'⟩, rfl⟩
                rw [hnd] at hm; cases hm
                rw [hop] at hm'; cases hm'
                exact ⟨rfl, rfl⟩
            · simpa [hb] using k3 b c v
    | @skip id n cv e' hnd ho _ _ =>
      refine ⟨ks, k1, by simpa using k2.trans (List.sublist_append_left _ _), fun b c v => ?_⟩
      by_cases hb : b = id
      · subst hb
        exact iff_of_false (hnot c v) (by simp)
      · simpa [hb] using k3 b c v

/-- A list without repetitions in which the needed tensors come first keeps this order when some elements are left out. -/
theorem order_sublist {g : Graph Op} {l m : List Nat} (ho : InDependencyOrder g l) (hn : l.Nodup) (hs : m.Sublist l) {pre post : List Nat} {b b' : Nat} (he : m = pre ++ b :: post)
    (hb : b' ∈ m) (hu : TransGen (Uses g) b b') : b' ∈ pre := by
  have key : ∀ {p a q}, l = p ++ a :: q → ∀ {c}, TransGen (Uses g) a c → c ∈ p := by
    intro p a q e c h
    induction h with
    | single h => exact ho _ _ _ e _ h
    | tail _ h ih =>
      obtain ⟨p1, p2, rfl⟩ := List.append_of_mem ih
      have := ho p1 _ (p2 ++ a :: q) (by rw [e]; simp) _ h
      simp [this]
  subst he
  obtain ⟨l1, l2, rfl, h1, h2⟩ := List.append_sublist_iff.1 hs
  obtain ⟨q1, q2, rfl, h3, h4⟩ := List.cons_sublist_iff.1 h2
  obtain ⟨u, v, rfl⟩ := List.append_of_mem h3
  have hp : b' ∈ l1 ++ u := key (p := l1 ++ u) (q := v ++ q2) (by simp) hu
  have hn' : ((l1 ++ u) ++ (b :: (v ++ q2))).Nodup := by simpa using hn
  rcases List.mem_append.1 hb with h | h
  · exact h
  · refine absurd rfl ((List.nodup_append.1 hn').2.2 _ hp b' ?_)
    rcases List.mem_cons.1 h with rfl | h
    · simp
    · simp [h4.mem h]

section Pure
variable {f : Op → List (OpInput V) → Option (Except E (List V))} {shapeOf : V → List Nat} {g : Graph (HookedOp Op H)} {feeds : List (Feed V)} {env : List V}

theorem HookOn.isOp {b a : Nat} {h : H} (hb : HookOn g b h a) : IsOp g b := by
  obtain ⟨n, h1, -, -, h2, h3⟩ := hb
  exact ⟨n, h1, h2, h3⟩

/-- What a hook tensor means. -/
theorem means_hook (hw : WF g) {b a : Nat} {h : H} (hb : HookOn g b h a) {r : Except E (List V)} (hm : Means (hookedFn f) shapeOf g feeds env b r) :
    (∃ v, r = .ok [v] ∧ TargetMeans (hookedFn f) shapeOf g feeds env a (.ok v)) ∨ ∃ e, r = .error e ∧ TargetMeans (hookedFn f) shapeOf g feeds env a (.error e) := by
  obtain ⟨n, hn, hop, hin, -, -⟩ := hb
  have hu : IsOp g a → Uses g b a := fun ho => ⟨⟨n, hn, { id := a }, by rw [hin]; exact List.mem_singleton.2 rfl, rfl⟩, ho⟩
  cases hm with
  | run hn' _ hcv hxs hf =>
    rw [hn] at hn'; cases hn'
    rw [hin] at hxs
    cases hxs with
    | cons hx hnil =>
      cases hnil
      rw [hop] at hf
      cases hf
      refine .inl ⟨_, rfl, ?_⟩
      cases hx with
      | placeholder hm hf =>
        obtain ⟨nm, _, h1, _⟩ := id hf
        refine .placeholder hm ((hw.notBoth _ _ hm).resolve_left (by simp [h1])) hf
      | variable_ hm _ h2 h3 => exact .variable_ hm h2 h3
      | result ho hc hy => exact .result (hc ▸ hcv _ (hu ho)) hy
  | fail hn' _ hcv hxs =>
    rw [hn] at hn'; cases hn'
    rw [hin] at hxs
    refine .inr ⟨_, rfl, ?_⟩
    cases hxs with
    | later _ hnil => cases hnil
    | first hx => cases hx with | failed ho hc => exact .failed (hc ▸ hcv _ (hu ho))

/-- A hook tensor means what the tensor with the hook means. -/
theorem hook_means (hw : WF g) {b a : Nat} {h : H} (hb : HookOn g b h a) {r : Except E V} (hm : TargetMeans (hookedFn f) shapeOf g feeds env a r) :
    Means (hookedFn f) shapeOf g feeds env b (r.map fun v => [v]) := by
  have ho := HookOn.isOp hb
  obtain ⟨n, hn, hop, hin, -, -⟩ := hb
  have hnot : ∀ {m : Node (HookedOp Op H)}, g.nodes[a]? = some m → m.isLeafInput = true → ∀ c, Uses g b c → False := by
    rintro m hm hl c ⟨⟨n', hn', i, hi, rfl⟩, hc⟩
    rw [hn] at hn'; cases hn'
    rw [hin, List.mem_singleton] at hi
    subst hi
    rw [isOp_iff hm, hl] at hc
    cases hc
  have huse : ∀ c, Uses g b c → c = a := by
    rintro c ⟨⟨n', hn', i, hi, rfl⟩, -⟩
    rw [hn] at hn'; cases hn'
    rw [hin, List.mem_singleton] at hi
    subst hi
    rfl
  cases hm with
  | @placeholder m v hm h1 hf =>
    obtain ⟨nm, _, h2, _⟩ := id hf
    refine .run (cv := fun _ => .ok []) hn ho (fun c hc => (hnot hm (by simp [Node.isLeafInput, h2]) c hc).elim) (xs := [⟨.nonVariable, v⟩])
      (by rw [hin]; exact .cons (.placeholder hm hf) .nil) (by rw [hop]; rfl)
  | @variable_ m vid v hm h1 h2 =>
    refine .run (cv := fun _ => .ok []) hn ho (fun c hc => (hnot hm (by simp [Node.isLeafInput, Node.isVariable, h1]) c hc).elim) (xs := [⟨.rdOnly, v⟩])
      (by rw [hin]; exact .cons (.variable_ hm ((hw.notBoth _ _ hm).resolve_right (by simp [h1])) h1 h2) .nil) (by rw [hop]; rfl)
  | @result ys y hm hy =>
    refine .run (cv := fun _ => .ok ys) hn ho (fun c hc => by rw [huse c hc]; exact hm) (xs := [⟨.nonVariable, y⟩])
      (by rw [hin]; exact .cons (.result (means_isOp hm) rfl hy) .nil) (by rw [hop]; rfl)
  | @failed e hm =>
    exact .fail (cv := fun _ => .error e) hn ho (fun c hc => by rw [huse c hc]; exact hm) (by rw [hin]; exact .first (.failed (means_isOp hm) rfl))

theorem computes_hooked {S : Sem Op V E W} {call : H → V → T → T} {o : HookedOp Op H} (h : ∀ o', o = .op o' → Computes S o' (f o')) :
    Computes (withHooks S call) o (hookedFn f o) := by
  rintro ⟨w, t⟩ xs
  cases o with
  | op o =>
    have := h o rfl w xs
    rw [show hookedFn f (.op o : HookedOp Op H) xs = f o xs from rfl, ← this]
    simp only [withHooks]
    cases S.compute o w xs <;> rfl
  | hook c =>
    cases xs with
    | nil => rfl
    | cons x xs => simp [withHooks, outcomeResult, hookedFn]

end Pure

/-- An evaluation of old tensors does not need a new one. -/
theorem needed_old {g g' : Graph Op} (hc : Closed g) {n : Node Op} (hn : g'.nodes = g.nodes ++ [n]) {targets : List Nat} (ht : ∀ t ∈ targets, t < g.size) {b : Nat}
    (h : Needed g' targets b) : b < g.size := by
  obtain ⟨t, h1, -, h2⟩ := h
  have h0 := ht t h1
  clear h1
  induction h2 with
  | refl => exact h0
  | tail _ hu ih =>
    obtain ⟨⟨m, hm, i, hi, rfl⟩, -⟩ := hu
    rw [hn, List.getElem?_append_left ih] at hm
    exact hc _ _ hm i hi

end Verif.Eval
