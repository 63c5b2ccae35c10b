import Verif.Lemmas.CallsGraph

/-! From conditions on calls to conditions on tensors. -/

namespace Verif.Prog
open Verif Verif.Graph Verif.Nd Verif.Hint Verif.Gradient Verif.Spec Verif.Eval

theorem stmtOk_weaken {still still' : Nat → Prop} {flat flat' : Nat → List Nat → Prop} {p : Nat → Arr ℝ} {s : Stmt} (h : ∀ a, still a → still' a)
    (hf : ∀ a i, flat a i → flat' a i) (hs : StmtOk still flat p s) : StmtOk still' flat' p s := by
  cases s
  case div a b => exact ⟨hs.1, hs.2.imp (fun h' => ⟨h _ h'.1, h _ h'.2⟩) id⟩
  case un op x => exact Or.imp (h _) id hs
  case reduceSum x a keep => exact ⟨h _ hs.1, hs.2.imp (h _) id⟩
  case reduceMean x a keep => exact ⟨h _ hs.1, hs.2.imp (h _) id⟩
  case softmax => exact Or.imp (h _) id hs
  case logSoftmax => exact Or.imp (h _) id hs
  case sigmoidCE => exact ⟨h _ hs.1, hs.2.imp (h _) id⟩
  case sparseCE => exact ⟨h _ hs.1, hs.2.imp (h _) id⟩
  case zeros => exact h _ hs
  case ones => exact h _ hs
  case slice => exact Or.imp (h _) id hs
  case squeeze => exact ⟨h _ hs.1, hs.2.imp (h _) id⟩
  case transpose => exact ⟨h _ hs.1, hs.2.imp (h _) id⟩
  case extremum => exact Or.imp (fun h' => ⟨h _ h'.1, h _ h'.2⟩) id hs
  case reduceExt => exact ⟨h _ hs.1, hs.2.imp (h _) id⟩
  case stopGradient => exact h _ hs
  case reshape => exact ⟨h _ hs.1, hs.2.imp (h _) id⟩
  case gather => exact ⟨h _ hs.1, hs.2.imp (h _) id⟩
  case expandDims => exact ⟨h _ hs.1, h _ hs.2⟩
  case conv2d => exact Or.imp (fun h' => ⟨h _ h'.1, h _ h'.2⟩) id hs
  case maxPool => exact Or.imp (h _) (poolOk_mono (hf _)) hs
  case dropout => exact Or.imp (h _) id hs
  case argMax => exact h _ hs
  case cmp => exact ⟨h _ hs.1, h _ hs.2⟩
  all_goals exact hs

theorem stmtOk_rename {still still' : Nat → Prop} {flat flat' : Nat → List Nat → Prop} {p p' : Nat → Arr ℝ} {f : Nat → Nat} {s : Stmt} (h : ∀ a ∈ s.args, still a → still' (f a))
    (hf : ∀ a ∈ s.args, ∀ i, flat a i → flat' (f a) i) (hp : ∀ a ∈ s.args, p' (f a) = p a) (hs : StmtOk still flat p s) : StmtOk still' flat' p' (s.rename f) := by
  cases s
  case addN x y zs =>
    intro z hz
    obtain ⟨z', hz', rfl⟩ : ∃ z' ∈ y :: zs, f z' = z := by simpa [eq_comm] using hz
    rw [hp z' (List.mem_cons_of_mem _ hz'), hp x (by simp [Stmt.args])]
    exact hs z' hz'
  all_goals simp only [Stmt.args, List.mem_cons, List.not_mem_nil, or_false, forall_eq_or_imp, forall_eq, IsEmpty.forall_iff, implies_true] at h hf hp
  all_goals simp only [Stmt.rename, StmtOk, hp] at hs ⊢
  case placeholder => exact hs
  case add => exact hs
  case sub => exact hs
  case mul => exact hs
  case div => exact ⟨hs.1, hs.2.imp (fun h' => ⟨h.1 h'.1, h.2 h'.2⟩) id⟩
  case un => exact hs.imp h id
  case reduceSum => exact ⟨h.2 hs.1, hs.2.imp h.1 id⟩
  case reduceMean => exact ⟨h.2 hs.1, hs.2.imp h.1 id⟩
  case softmax => exact hs.imp h id
  case logSoftmax => exact hs.imp h id
  case sigmoidCE => exact ⟨h.2 hs.1, hs.2.imp h.1 id⟩
  case sparseCE => exact ⟨h.2 hs.1, hs.2.imp h.1 id⟩
  case zeros => exact h hs
  case ones => exact h hs
  case slice => exact hs.imp h id
  case squeeze => exact ⟨h.2 hs.1, hs.2.imp h.1 id⟩
  case transpose => exact ⟨h.2 hs.1, hs.2.imp h.1 id⟩
  case extremum => exact hs.imp (fun h' => ⟨h.1 h'.1, h.2 h'.2⟩) id
  case reduceExt => exact ⟨h.2 hs.1, hs.2.imp h.1 id⟩
  case stopGradient => exact h hs
  case reshape => exact ⟨h.2 hs.1, hs.2.imp h.1 id⟩
  case gather => exact ⟨h.1 hs.1, hs.2.imp h.2 id⟩
  case expandDims => exact ⟨h.1 hs.1, h.2 hs.2⟩
  case conv2d => exact hs.imp (fun h' => ⟨h.1 h'.1, h.2 h'.2⟩) id
  case maxPool => exact hs.imp h (poolOk_mono hf)
  case dropout => exact hs.imp h id
  case argMax => exact h hs
  case cmp => exact ⟨h.1 hs.1, h.2 hs.2⟩

theorem gradGiven_rename {still still' : Nat → Prop} {f : Nat → Nat} {s : Stmt} (h : ∀ a ∈ s.args, still a → still' (f a))
    (hs : GradGivenFor still s) : GradGivenFor still' (s.rename f) := by
  cases s
  case un op x => cases op <;> first | exact h _ (by simp [Stmt.args]) hs | trivial
  case reduceSum => exact h _ (by simp [Stmt.args]) hs
  case reduceMean => exact h _ (by simp [Stmt.args]) hs
  case zeros => exact h _ (by simp [Stmt.args]) hs
  case ones => exact h _ (by simp [Stmt.args]) hs
  case squeeze => exact h _ (by simp [Stmt.args]) hs
  case transpose => exact h _ (by simp [Stmt.args]) hs
  case reduceExt => exact h _ (by simp [Stmt.args]) hs
  case reshape => exact h _ (by simp [Stmt.args]) hs
  case gather => exact h _ (by simp [Stmt.args]) hs
  case expandDims => exact h _ (by simp [Stmt.args]) hs
  case argMax => exact h _ (by simp [Stmt.args]) hs
  case cmp => exact ⟨h _ (by simp [Stmt.args]) hs.1, h _ (by simp [Stmt.args]) hs.2⟩
  all_goals trivial

/-- What is known of the tensors of a program that has been built. -/
structure Built (l : List Stmt) (g : Graph POp) (ids : List Nat) : Prop where
  run : runProgram (l.map (Stmt.rename (fun k => ids.getD k 0))) = .ok (g, ids)
  length : ids.length = l.length
  tensor : ∀ (k : Nat) (s : Stmt), l[k]? = some s → TensorFor g (ids.getD k 0) (s.rename (fun k => ids.getD k 0))
  shape : ∀ (k x : Nat), l[k]? = some (.shapeOf x) → ShapeTensor hintOps g (ids.getD x 0) (ids.getD k 0)
  hinv : HInv hintOps ((l.map (Stmt.rename (fun k => ids.getD k 0))).map Stmt.ctor) g

theorem built {l : List Stmt} {g : Graph POp} {ids : List Nat} (h : buildCalls l = .ok (g, ids)) (hs : Scoped l) : Built l g ids := by
  obtain ⟨h1, h2⟩ := buildCalls_run h hs
  obtain ⟨_, hi, hsh⟩ := constructAll_ok hinv_empty (fun _ h => h) h2
  have hid : ∀ k < l.length, ids[k]? = some (ids.getD k 0) := fun k hk => by
    rw [List.getD_eq_getElem?_getD, List.getElem?_eq_getElem (by omega)]; rfl
  refine ⟨h2, h1, fun k s hk => ?_, fun k x hk => ?_, hi⟩
  · have hlt := (List.getElem?_eq_some_iff.1 hk).1
    exact constructAll_tensors hinv_empty (fun _ h => h) h2 k _ _ (by rw [List.getElem?_map, hk]; rfl) (hid k hlt)
  · have hlt := (List.getElem?_eq_some_iff.1 hk).1
    exact hsh k _ _ (by rw [List.getElem?_map, List.getElem?_map, hk]; rfl) (hid k hlt)

/-- The variables `vids` are used by the calls `xs`. -/
abbrev VarCalls (l : List Stmt) (xs vids : List Nat) : Prop := List.Forall₂ (fun k vid => l[k]? = some (.var vid)) xs vids

theorem varCalls_mem {l : List Stmt} {xs vids : List Nat} (h : VarCalls l xs vids) {k : Nat} (hk : k ∈ xs) : ∃ vid ∈ vids, l[k]? = some (.var vid) := by
  induction h with
  | nil => cases hk
  | cons h1 _ ih =>
    rcases List.mem_cons.1 hk with rfl | hk
    · exact ⟨_, by simp, h1⟩
    · obtain ⟨v, a, b⟩ := ih hk
      exact ⟨v, by simp [a], b⟩

theorem fixed_still {l : List Stmt} {g : Graph POp} {ids : List Nat} (hb : Built l g ids) {xs vids : List Nat} (hx : VarCalls l xs vids) {k : Nat}
    (h : Fixed l vids k) : Still g (xs.map (fun k => ids.getD k 0)) (ids.getD k 0) := by
  induction h with
  | @var k vid hk hv =>
    obtain ⟨nd, a, b⟩ := hb.tensor k _ hk
    refine .leaf ⟨nd, a, .inr (by rw [b]; simp)⟩ fun hm => ?_
    obtain ⟨x, hxm, e⟩ := List.mem_map.1 hm
    obtain ⟨w, hw, hxw⟩ := varCalls_mem hx hxm
    obtain ⟨nd', a', b'⟩ := hb.tensor x _ hxw
    have e : ids.getD x 0 = ids.getD k 0 := e
    rw [e, a] at a'
    cases a'
    rw [b] at b'
    cases b'
    exact hv hw
  | shapeOf hk => exact shape_still hb.hinv _ _ (hb.shape _ _ hk)
  | sizeOf hk =>
    have := hb.tensor _ _ hk
    exact .size (this _ _ rfl)
  | stop hk =>
    have := hb.tensor _ _ hk
    exact .stop (this _ _ rfl)
  | @call k s hk hv ha ih =>
    have ht := hb.tensor k s hk
    cases hs : s.app with
    | none =>
      rcases app_none hs with ⟨v, rfl⟩ | ⟨n, d, rfl⟩ | ⟨x, rfl⟩
      · exact absurd rfl (hv v)
      · obtain ⟨nd, a, b, c, _⟩ := ht
        refine .leaf ⟨nd, a, .inl (by rw [b]; simp)⟩ fun hm => ?_
        obtain ⟨x, hxm, e⟩ := List.mem_map.1 hm
        obtain ⟨w, hw, hxw⟩ := varCalls_mem hx hxm
        obtain ⟨nd', a', b'⟩ := hb.tensor x _ hxw
        have e : ids.getD x 0 = ids.getD k 0 := e
        rw [e, a] at a'
        cases a'
        rw [c] at b'
        cases b'
      · exact shape_still hb.hinv _ _ (hb.shape _ _ hk)
    | some oa =>
      obtain ⟨op, as⟩ := oa
      have happ : (s.rename (fun k => ids.getD k 0)).app = some (op, as.map (fun k => ids.getD k 0)) := by rw [app_rename, hs]; rfl
      have : IsApp g (ids.getD k 0) op (as.map (fun k => ids.getD k 0)) := by
        cases s <;> first | exact ht _ _ happ | cases hs
      refine .app this fun z hz => ?_
      obtain ⟨a, ham, rfl⟩ := List.mem_map.1 hz
      exact ih a (by rw [← app_args hs]; exact ham)

theorem flat_of {l : List Stmt} (hs : Scoped l) {g : Graph POp} {ids : List Nat} (hb : Built l g ids) {val p : Nat → Arr ℝ} (hp : ∀ k < l.length, p (ids.getD k 0) = val k) {k : Nat}
    {i : List Nat} (h : FlatIn l val k i) : Flat g p (ids.getD k 0) i := by
  obtain ⟨op, x, hk, hd⟩ := h
  have hlt := (List.getElem?_eq_some_iff.1 hk).1
  have := hs k _ hk x (by simp [Stmt.args])
  refine ⟨op, ids.getD x 0, hb.tensor k _ hk _ _ rfl, ?_⟩
  rw [hp x (by omega)]
  exact hd

theorem ids_nodup {l : List Stmt} {g : Graph POp} {ids : List Nat} (hb : Built l g ids) : ∀ {xs vids : List Nat}, VarCalls l xs vids → vids.Nodup →
    (xs.map (fun k => ids.getD k 0)).Nodup
  | _, _, .nil, _ => by simp
  | _, _, .cons (a := x) (b := v) (l₁ := xs) (l₂ := vs) h1 h2, hn => by
    rw [List.nodup_cons] at hn
    rw [List.map_cons, List.nodup_cons]
    refine ⟨fun hm => ?_, ids_nodup hb h2 hn.2⟩
    obtain ⟨y, hym, e⟩ := List.mem_map.1 hm
    obtain ⟨w, hw, hyw⟩ := varCalls_mem h2 hym
    obtain ⟨nd, a, b⟩ := hb.tensor x _ h1
    obtain ⟨nd', a', b'⟩ := hb.tensor y _ hyw
    have e : ids.getD y 0 = ids.getD x 0 := e
    rw [e, a] at a'
    cases a'
    rw [b] at b'
    cases b'
    exact hn.1 hw

theorem forall₂_zip {α β γ : Type} {R : α → β → Prop} {Q : β → γ → Prop} : ∀ {xs : List α} {vs : List β} {ts : List γ}, List.Forall₂ R xs vs →
    List.Forall₂ (fun x t => ∀ v, R x v → Q v t) xs ts → List.Forall₂ Q vs ts
  | _, _, _, .nil, .nil => .nil
  | _, _, _, .cons h1 h2, .cons h3 h4 => .cons (h3 _ h1) (forall₂_zip h2 h4)

/-- The values of the tensors of a program are the values of its calls. -/
theorem denotes_of_evals {l : List Stmt} {g : Graph POp} {ids : List Nat} (hb : Built l g ids) (hs : Scoped l) {fs : List (String × Arr ℝ)} {N : List (Arr ℝ)}
    {p : Nat → Arr ℝ} (hp : ∀ n, n < g.nodes.length → Evals (setting (named fs) N) g n (p n)) (hid : ∀ k < l.length, ids.getD k 0 < g.nodes.length)
    (hsh : ∀ (k x : Nat), l[k]? = some (.shapeOf x) → p (ids.getD k 0) = encShape (p (ids.getD x 0)).shape) :
    Denotes fs N l (fun k => p (ids.getD k 0)) := by
  intro k s hk
  have hlt := (List.getElem?_eq_some_iff.1 hk).1
  have ht := hb.tensor k s hk
  have hev := hp _ (hid k hlt)
  cases hsa : s.app with
  | none =>
    rcases app_none hsa with ⟨v, rfl⟩ | ⟨n, d, rfl⟩ | ⟨x, rfl⟩
    · exact (variable_evals ht hev).1
    · obtain ⟨nd, a, b, c, e⟩ := ht
      cases hev.1 with
      | placeholder hn _ hf =>
        rw [a] at hn; cases hn
        obtain ⟨name, d', h1, h2, h3, h4⟩ := hf
        rw [b] at h1; cases h1
        rw [e] at h2; cases h2
        exact ⟨first_fedAs h3, h4⟩
      | variable_ hn hv _ => rw [a] at hn; cases hn; rw [c] at hv; cases hv
      | result hm _ => cases hm with
        | run hn ho _ _ _ =>
          obtain ⟨n', hn', h', _⟩ := ho
          rw [a] at hn'; cases hn'
          rw [b] at h'; cases h'
    · exact hsh k x hk
  | some oa =>
    obtain ⟨op, as⟩ := oa
    have happ : (s.rename (fun k => ids.getD k 0)).app = some (op, as.map (fun k => ids.getD k 0)) := by rw [app_rename, hsa]; rfl
    have ha : IsApp g (ids.getD k 0) op (as.map (fun k => ids.getD k 0)) := by
      cases s <;> first | exact ht _ _ happ | cases hsa
    have := run_of_evals hb.hinv.reach.wf ha (fun z hz => by
      obtain ⟨a, ham, rfl⟩ := List.mem_map.1 hz
      rw [app_args hsa] at ham
      have := hs k s hk a ham
      exact hp _ (hid a (by omega))) hev
    rw [List.map_map] at this
    exact (returns_iff hsa).2 this

end Verif.Prog
