import Verif.Lemmas.ProgramValues
import Verif.Lemmas.ProgramMake
import Verif.Props.Elementwise

/-! Tensors built by the gradient functions of the ops of a program, and what they represent. -/

namespace Verif.Prog
open Verif Verif.Graph Verif.Nd Verif.Hint Verif.Gradient Verif.Spec Verif.Eval

/-- The inner product with an array, as a function of the other factor. -/
noncomputable def innerHom (s : List Nat) (a : List Nat → ℝ) : (List Nat → ℝ) →+ ℝ where
  toFun := inner s a
  map_zero' := by simp [inner]
  map_add' := fun x y => by simp [inner, mul_add, Finset.sum_add_distrib]

/-- The tangents with those of the tensors of `Z` replaced by zero. -/
noncomputable def mask (Z : Nat → Prop) (t : Nat → List Nat → ℝ) (n : Nat) : List Nat → ℝ := by
  classical exact if Z n then 0 else t n

theorem mask_pos {Z : Nat → Prop} {n : Nat} (h : Z n) (t : Nat → List Nat → ℝ) : mask Z t n = 0 := if_pos h

theorem mask_neg {Z : Nat → Prop} {n : Nat} (h : ¬ Z n) (t : Nat → List Nat → ℝ) : mask Z t n = t n := if_neg h

/-- The calculus of a program: tangents are arrays, a tensor represents the inner product with its value. Nothing is required of gradients of the tensors of `Z`,
which do not move. -/
noncomputable def arrCalc (S : Setting POp Unit (Arr ℝ)) (g0 : Graph POp) (Z : Nat → Prop) (p : Nat → Arr ℝ) : Calculus POp where
  T := fun _ => List Nat → ℝ
  R := ℝ
  lin := fun n t => match g0.nodes[n]? with
    | some nd => jvp p (mask Z t) nd.op (nd.incoming.map Incoming.id)
    | none => 0
  Rep := fun g n t c => (Z n ∧ c = 0) ∨
    (¬ Z n ∧ ∃ v, Evals S g t v ∧ v.shape = (p n).shape ∧ Cont v ∧ ∀ τ : List Nat → ℝ, c τ = inner (p n).shape v.get τ)

/-- The gradients `gxs` of the inputs `is` represent `e`, a function of tangents that vanish on `Z`. -/
def Contr (S : Setting POp Unit (Arr ℝ)) (g0 : Graph POp) (Z : Nat → Prop) (p : Nat → Arr ℝ) (g : Graph POp) (is : List Incoming) (gxs : List (Option Nat))
    (e : (Nat → List Nat → ℝ) → ℝ) : Prop :=
  ∃ φ, Contribs (arrCalc S g0 Z p) g is gxs φ ∧ ∀ τ : Nat → List Nat → ℝ, e (mask Z τ) = φ τ

section
variable {F : List (Feed (Arr ℝ))} {N : List (Arr ℝ)} {g0 : Graph POp} {Z : Nat → Prop} {p : Nat → Arr ℝ}

theorem Contr.congr {S : Setting POp Unit (Arr ℝ)} {g : Graph POp} {is : List Incoming} {gxs : List (Option Nat)} {e e' : (Nat → List Nat → ℝ) → ℝ}
    (h : Contr S g0 Z p g is gxs e) (he : ∀ t, (∀ a, Z a → t a = 0) → e' t = e t) : Contr S g0 Z p g is gxs e' := by
  obtain ⟨φ, h1, h2⟩ := h
  exact ⟨φ, h1, fun τ => (he _ fun a ha => mask_pos ha τ).trans (h2 τ)⟩

theorem contr_nil {S : Setting POp Unit (Arr ℝ)} {g : Graph POp} {gxs : List (Option Nat)} : Contr S g0 Z p g [] gxs (fun _ => 0) := ⟨_, .nil, fun _ => rfl⟩

theorem contr_skip {S : Setting POp Unit (Arr ℝ)} {g : Graph POp} {i : Incoming} {is : List Incoming} {gxs : List (Option Nat)} {e : (Nat → List Nat → ℝ) → ℝ}
    (h : Contr S g0 Z p g is gxs e) : Contr S g0 Z p g (i :: is) (none :: gxs) e := by
  obtain ⟨φ, h1, h2⟩ := h
  exact ⟨φ, .none h1, h2⟩

theorem contr_still {S : Setting POp Unit (Arr ℝ)} {g : Graph POp} {x : Nat} {o : Option Nat} {is : List Incoming} {gxs : List (Option Nat)}
    {e : (Nat → List Nat → ℝ) → ℝ} (hz : Z x) (h : Contr S g0 Z p g is gxs e) : Contr S g0 Z p g (inp x :: is) (o :: gxs) e := by
  obtain ⟨φ, h1, h2⟩ := h
  cases o with
  | none => exact ⟨φ, .none h1, h2⟩
  | some t =>
    refine ⟨_, .some (c := (0 : (List Nat → ℝ) →+ ℝ)) (.inl ⟨hz, rfl⟩) h1, fun τ => ?_⟩
    rw [h2]
    exact (zero_add (M := ℝ) _).symm

theorem contr_some {g : Graph POp} {x t : Nat} {v : Arr ℝ} {is : List Incoming} {gxs : List (Option Nat)} {e : (Nat → List Nat → ℝ) → ℝ}
    (h : Evals (setting F N) g t v) (hs : v.shape = (p x).shape) (hc : Cont v) (hr : Contr (setting F N) g0 Z p g is gxs e) :
    Contr (setting F N) g0 Z p g (inp x :: is) (some t :: gxs) (fun τ => inner (p x).shape v.get (τ x) + e τ) := by
  by_cases hz : Z x
  · refine (contr_still hz hr).congr fun τ hτ => ?_
    simp [hτ x hz, inner]
  · obtain ⟨φ, h1, h2⟩ := hr
    refine ⟨_, .some (c := innerHom (p x).shape v.get) (.inr ⟨hz, v, h, hs, hc, fun _ => rfl⟩) h1, fun τ => ?_⟩
    show inner (p x).shape v.get (mask Z τ x) + e (mask Z τ) = @HAdd.hAdd ℝ ℝ ℝ _ (inner (p x).shape v.get (τ x)) (φ τ)
    rw [mask_neg hz, h2]

theorem contr_one {g : Graph POp} {x t : Nat} {v : Arr ℝ} {rest : List (Option Nat)} (h : Evals (setting F N) g t v) (hs : v.shape = (p x).shape)
    (hc : Cont v) : Contr (setting F N) g0 Z p g [inp x] (some t :: rest) (fun τ => inner (p x).shape v.get (τ x)) :=
  (contr_some h hs hc contr_nil).congr fun _ _ => (add_zero _).symm

theorem contr_two {g : Graph POp} {a b ta tb : Nat} {va vb : Arr ℝ} (ha : Evals (setting F N) g ta va) (has : va.shape = (p a).shape) (hac : Cont va)
    (hb : Evals (setting F N) g tb vb) (hbs : vb.shape = (p b).shape) (hbc : Cont vb) :
    Contr (setting F N) g0 Z p g [inp a, inp b] [some ta, some tb] (fun τ => inner (p a).shape va.get (τ a) + inner (p b).shape vb.get (τ b)) :=
  contr_some ha has hac (contr_one hb hbs hbc)

theorem contr_none {S : Setting POp Unit (Arr ℝ)} {g : Graph POp} (is : List Incoming) (gxs : List (Option Nat)) (h : gxs = is.map (fun _ => none)) :
    Contr S g0 Z p g is gxs (fun _ => 0) := by
  subst h
  induction is with
  | nil => exact contr_nil
  | cons i is ih => exact contr_skip ih

/-- No gradients are required of an op whose inputs do not move. -/
theorem contr_fixed {S : Setting POp Unit (Arr ℝ)} {g : Graph POp} : ∀ (xs : List Nat) (gxs : List (Option Nat)), xs.length ≤ gxs.length → (∀ x ∈ xs, Z x) →
    Contr S g0 Z p g (xs.map inp) gxs (fun _ => 0)
  | [], _, _, _ => contr_nil
  | _ :: _, [], h, _ => by simp at h
  | x :: xs, o :: gxs, h, hz => contr_still (hz x (by simp)) (contr_fixed xs gxs (by simpa using h) fun y hy => hz y (by simp [hy]))

theorem contr_all {g : Graph POp} {gy : Nat} {v : Arr ℝ} (h : Evals (setting F N) g gy v) (hc : Cont v) (s : List Nat) (hs : v.shape = s) :
    ∀ xs : List Nat, (∀ x ∈ xs, (p x).shape = s) → Contr (setting F N) g0 Z p g (xs.map inp) (xs.map (fun _ => some gy))
      (fun τ => inner s v.get (fun i => (xs.map (fun x => τ x i)).sum))
  | [], _ => contr_nil.congr fun τ _ => by simp [inner]
  | x :: xs, hx => by
    have hxs := hx x (by simp)
    refine (contr_some h (hs.trans hxs.symm) hc (contr_all h hc s hs xs fun z hz => hx z (by simp [hz]))).congr fun τ _ => ?_
    rw [hxs]
    simp [inner, mul_add, Finset.sum_add_distrib]

theorem run_maybeReduce {v r : Arr ℝ} {s : List Nat} (h : Nd.maybeReduce v s = .ok r) : POp.run .maybeReduce [v, encShape s] = .ok r := by
  simp only [POp.run, readShape_enc, bind, Except.bind, h]

/-- Building a gradient expression gives a tensor with the value of the expression. -/
theorem buildE_evals {x y gy : Nat} {X Y G : Arr ℝ} : ∀ (e : EExp) {g g' : Graph POp} {t : Nat} {r : Arr ℝ}, buildE x y gy e g = .ok (g', t) →
    InputsExist g → Evals (setting F N) g x X → Evals (setting F N) g y Y → Evals (setting F N) g gy G → e.eval X Y G = .ok r →
    Grows g g' ∧ InputsExist g' ∧ Evals (setting F N) g' t r := by
  have bin : ∀ (a b : EExp) (c : Nat → Nat → Ctor POp) (op : POp) (hcc : ∀ u v, ctorApp (c u v) = some (op, [u, v].map inp)) (f : Arr ℝ → Arr ℝ → Res (Arr ℝ))
      (hop : ∀ u v : Arr ℝ, op.run [u, v] = f u v)
      (iha : ∀ {g g' : Graph POp} {t : Nat} {r : Arr ℝ}, buildE x y gy a g = .ok (g', t) →
        InputsExist g → Evals (setting F N) g x X → Evals (setting F N) g y Y → Evals (setting F N) g gy G → a.eval X Y G = .ok r →
        Grows g g' ∧ InputsExist g' ∧ Evals (setting F N) g' t r)
      (ihb : ∀ {g g' : Graph POp} {t : Nat} {r : Arr ℝ}, buildE x y gy b g = .ok (g', t) →
        InputsExist g → Evals (setting F N) g x X → Evals (setting F N) g y Y → Evals (setting F N) g gy G → b.eval X Y G = .ok r →
        Grows g g' ∧ InputsExist g' ∧ Evals (setting F N) g' t r)
      {g g' : Graph POp} {t : Nat} {r : Arr ℝ}, (do let (g1, u) ← buildE x y gy a g; let (g2, v) ← buildE x y gy b g1; mk g2 (c u v)) = .ok (g', t) →
      InputsExist g → Evals (setting F N) g x X → Evals (setting F N) g y Y → Evals (setting F N) g gy G →
      (do let a' ← a.eval X Y G; let b' ← b.eval X Y G; f a' b') = .ok r →
      Grows g g' ∧ InputsExist g' ∧ Evals (setting F N) g' t r := by
    intro a b c op hcc f hop iha ihb g g' t r h hc hx hy hg he
    simp only [bind_ok] at h he
    obtain ⟨⟨g1, u⟩, h1, ⟨g2, v⟩, h2, h3⟩ := h
    obtain ⟨a', ha', b', hb', hf⟩ := he
    obtain ⟨G1, C1, E1⟩ := iha h1 hc hx hy hg ha'
    obtain ⟨G2, C2, E2⟩ := ihb h2 C1 (Evals.mono G1 hc hx) (Evals.mono G1 hc hy) (Evals.mono G1 hc hg) hb'
    obtain ⟨G3, C3, E3⟩ := mk_evals h3 C2 op [u, v] [a', b'] r (hcc u v) (.cons (Evals.mono G2 C1 E1) (.cons E2 .nil)) (by rw [hop]; exact hf)
    exact ⟨(G1.trans G2).trans G3, C3, E3⟩
  intro e
  induction e with
  | x => intro g g' t r h hc hx hy hg he; cases h; cases he; exact ⟨grows_refl _, hc, hx⟩
  | y => intro g g' t r h hc hx hy hg he; cases h; cases he; exact ⟨grows_refl _, hc, hy⟩
  | gy => intro g g' t r h hc hx hy hg he; cases h; cases he; exact ⟨grows_refl _, hc, hg⟩
  | const c => intro g g' t r h hc hx hy hg he; exact mk_evals h hc (.scalar c) [] [] r rfl .nil he
  | app op e ih =>
    intro g g' t r h hc hx hy hg he
    simp only [buildE, EExp.eval, bind_ok] at h he
    obtain ⟨⟨g1, a⟩, h1, h2⟩ := h
    obtain ⟨a', ha', hr⟩ := he
    obtain ⟨G1, C1, E1⟩ := ih h1 hc hx hy hg ha'
    obtain ⟨G2, C2, E2⟩ := mk_evals h2 C1 (.un op) [a] [a'] r (by cases op <;> rfl) (.cons E1 .nil) hr
    exact ⟨G1.trans G2, C2, E2⟩
  | add a b iha ihb => exact fun h => bin a b (.binary .add) .add (fun _ _ => rfl) addOp (fun _ _ => rfl) iha ihb h
  | sub a b iha ihb => exact fun h => bin a b (.binary .sub) .sub (fun _ _ => rfl) subOp (fun _ _ => rfl) iha ihb h
  | mul a b iha ihb => exact fun h => bin a b (.binary .mul) .mul (fun _ _ => rfl) mulOp (fun _ _ => rfl) iha ihb h
  | div a b iha ihb => exact fun h => bin a b (.binary .div) .div (fun _ _ => rfl) divOp (fun _ _ => rfl) iha ihb h
  | greater a b iha ihb =>
    exact fun h => bin a b (fun u v => .plain (.cmp .gt) [inp u, inp v]) (.cmp .gt) (fun _ _ => rfl) (cmpOp greaterFn) (fun _ _ => rfl) iha ihb h
  | eluGrad alpha a b iha ihb =>
    exact fun h => bin a b (fun u v => .like (.eluGrad alpha) [inp u, inp v] v) (.eluGrad alpha) (fun _ _ => rfl)
      (eluGradOp alpha) (fun _ _ => rfl) iha ihb h
  | clipGrad lo hi a b iha ihb =>
    exact fun h => bin a b (fun u v => .like (.clipGrad lo hi) [inp u, inp v] v) (.clipGrad lo hi) (fun _ _ => rfl)
      (clipGradOp lo hi) (fun _ _ => rfl) iha ihb h

theorem pow_neg_two (a : ℝ) : EOp.f (.pow (-2)) a = 1 / (a * a) := by
  show a ^ (-2 : ℝ) = _
  rw [show (-2 : ℝ) = ((-2 : ℤ) : ℝ) by norm_num, Real.rpow_intCast, zpow_neg, one_div]
  congr 1
  exact zpow_two a

/-- The situation in which gradients of an op tensor `y` with inputs `xs` are built, where `gy` holds the gradient of `y`. -/
structure GradCtx (F : List (Feed (Arr ℝ))) (N : List (Arr ℝ)) (Z : Nat → Prop) (p : Nat → Arr ℝ) (op : POp) (xs : List Nat) (g : Graph POp) (y gy : Nat)
    (yv gv : Arr ℝ) : Prop where
  run : op.run (xs.map p) = .ok yv
  closed : InputsExist g
  evals : ∀ x ∈ xs, Evals (setting F N) g x (p x)
  hint : ∀ x ∈ xs, Hinted (setting F N) g x (p x).shape
  app : IsApp g y op xs
  self : Evals (setting F N) g y yv
  grad : Evals (setting F N) g gy gv
  shape : gv.shape = yv.shape
  cont : Cont gv
  fixed : ∀ a ∈ fixedIn op xs, Z a

/-! ## Lists of tensors built by gradient functions -/

/-- Value of a tensor in a gradient function; `ws` are the known values of those built before. -/
def Ref.Is (vs : List (Arr ℝ)) (yv gv : Arr ℝ) (ws : List (Option (Arr ℝ))) : Ref → Arr ℝ → Prop
  | .x k, v => vs[k]? = some v
  | .y, v => v = yv
  | .gy, v => v = gv
  | .t k, v => ws[k]? = some (some v)

/-- Value of a tensor built by a gradient function of `op`. -/
def Cmd.Is (op : POp) (vs : List (Arr ℝ)) (yv gv : Arr ℝ) (ws : List (Option (Arr ℝ))) : Cmd → Arr ℝ → Prop
  | .shape a, v => ∃ k u, a = .x k ∧ vs[k]? = some u ∧ v = encShape u.shape
  | .bin o a b, v => ∃ u w, Ref.Is vs yv gv ws a u ∧ Ref.Is vs yv gv ws b w ∧ o.run [u, w] = .ok v
  | .plain o as, v => ∃ us, List.Forall₂ (Ref.Is vs yv gv ws) as us ∧ o.run us = .ok v
  | .like o as _, v => ∃ us, List.Forall₂ (Ref.Is vs yv gv ws) as us ∧ o.run us = .ok v
  | .un o a, v => ∃ u, Ref.Is vs yv gv ws a u ∧ v = o.compute u
  | .scalar c, v => v = ofFn [] (fun _ => c)
  | .vec l, v => v = Prog.vec l
  | .withBp o as _, v => ∃ us, List.Forall₂ (Ref.Is vs yv gv ws) as us ∧ o.run us = .ok v
  | .nth a n, v => a = .y ∧ (yv :: op.extra vs)[n]? = some v

/-- The values `ws'` of all tensors built, as far as known; `ws` are those of the tensors built before. -/
inductive Vals (op : POp) (vs : List (Arr ℝ)) (yv gv : Arr ℝ) : List Cmd → List (Option (Arr ℝ)) → List (Option (Arr ℝ)) → Prop where
  | nil {ws} : Vals op vs yv gv [] ws ws
  | some {c cs v ws ws'} : Cmd.Is op vs yv gv ws c v → Vals op vs yv gv cs (ws ++ [some v]) ws' → Vals op vs yv gv (c :: cs) ws ws'
  | none {c cs ws ws'} : Vals op vs yv gv cs (ws ++ [none]) ws' → Vals op vs yv gv (c :: cs) ws ws'

/-- The known values are those of the tensors. -/
def Known (F : List (Feed (Arr ℝ))) (N : List (Arr ℝ)) (g : Graph POp) (ts : List Nat) (ws : List (Option (Arr ℝ))) : Prop :=
  ts.length = ws.length ∧ ∀ (k : Nat) v, ws[k]? = some (some v) → Evals (setting F N) g (ts.getD k 0) v

theorem isApp_mono {g g' : Graph POp} (h : Grows g g') {t : Nat} {op : POp} {xs : List Nat} (ha : IsApp g t op xs) : IsApp g' t op xs := by
  obtain ⟨n, a, b⟩ := ha
  exact ⟨n, h.1 _ _ a, b⟩

theorem GradCtx.grows {op : POp} {xs : List Nat} {g g' : Graph POp} {y gy : Nat} {yv gv : Arr ℝ} (h : GradCtx F N Z p op xs g y gy yv gv) (hg : Grows g g') :
    GradCtx F N Z p op xs g' y gy yv gv :=
  ⟨h.run, hg.2 h.closed, fun x hx => Evals.mono hg h.closed (h.evals x hx), fun x hx => (h.hint x hx).grows hg h.closed (evals_lt (h.evals x hx)),
    isApp_mono hg h.app, Evals.mono hg h.closed h.self, Evals.mono hg h.closed h.grad, h.shape, h.cont, h.fixed⟩

theorem Known.grows {g g' : Graph POp} (hg : Grows g g') (hc : InputsExist g) {ts : List Nat} {ws : List (Option (Arr ℝ))} (h : Known F N g ts ws) :
    Known F N g' ts ws := ⟨h.1, fun k v hk => Evals.mono hg hc (h.2 k v hk)⟩

theorem Known.snoc {g : Graph POp} {ts : List Nat} {ws : List (Option (Arr ℝ))} (h : Known F N g ts ws) {t : Nat} {o : Option (Arr ℝ)}
    (ho : ∀ v, o = some v → Evals (setting F N) g t v) : Known F N g (ts ++ [t]) (ws ++ [o]) := by
  refine ⟨by simp [h.1], fun k v hk => ?_⟩
  rcases Nat.lt_trichotomy k ws.length with h1 | h1 | h1
  · rw [List.getElem?_append_left h1] at hk
    have := h.2 k v hk
    rwa [List.getD_eq_getElem?_getD, List.getElem?_append_left (by rw [h.1]; exact h1), ← List.getD_eq_getElem?_getD]
  · subst h1
    rw [List.getElem?_append_right (Nat.le_refl _)] at hk
    simp at hk
    rw [List.getD_eq_getElem?_getD, ← h.1, List.getElem?_append_right (Nat.le_refl _)]
    simpa using ho v hk
  · rw [List.getElem?_eq_none (by simp; omega)] at hk; cases hk

theorem forall₂_map {α β : Type} {P : α → β → Prop} {f : α → β} {l : List α} (h : ∀ a ∈ l, P a (f a)) : List.Forall₂ P l (l.map f) := by
  induction l with
  | nil => exact .nil
  | cons a l ih => exact .cons (h a (by simp)) (ih fun b hb => h b (by simp [hb]))

theorem ref_evals {op : POp} {xs : List Nat} {g : Graph POp} {y gy : Nat} {yv gv : Arr ℝ} (h : GradCtx F N Z p op xs g y gy yv gv) {ts : List Nat}
    {ws : List (Option (Arr ℝ))} (hk : Known F N g ts ws) : ∀ {a : Ref} {v : Arr ℝ}, Ref.Is (xs.map p) yv gv ws a v → Evals (setting F N) g (Ref.id xs y gy ts a) v
  | .x k, v, hv => by
    simp only [Ref.Is, List.getElem?_map, Option.map_eq_some_iff] at hv
    obtain ⟨x, hx, rfl⟩ := hv
    simp only [Ref.id, List.getD_eq_getElem?_getD, hx, Option.getD_some]
    exact h.evals x (List.mem_of_getElem? hx)
  | .y, v, hv => by cases hv; exact h.self
  | .gy, v, hv => by cases hv; exact h.grad
  | .t k, v, hv => hk.2 k v hv

theorem cmd_evals {op : POp} {xs : List Nat} {g g' : Graph POp} {y gy t : Nat} {yv gv : Arr ℝ} (h : GradCtx F N Z p op xs g y gy yv gv) {ts : List Nat}
    {ws : List (Option (Arr ℝ))} (hk : Known F N g ts ws) : ∀ {c : Cmd} {v : Arr ℝ}, c.build (Ref.id xs y gy ts) g = .ok (g', t) →
    Cmd.Is op (xs.map p) yv gv ws c v → Evals (setting F N) g' t v
  | .shape a, v, hb, ⟨k, u, ha, hu, e⟩ => by
    subst e ha
    simp only [List.getElem?_map, Option.map_eq_some_iff] at hu
    obtain ⟨x, hx, rfl⟩ := hu
    have hm := List.mem_of_getElem? hx
    have hb : mkShape g (xs.getD k 0) = .ok (g', t) := hb
    rw [List.getD_eq_getElem?_getD, hx, Option.getD_some] at hb
    exact (mkShape_evals hb h.closed (h.evals x hm) (h.hint x hm)).2.2
  | .bin o a b, v, hb, ⟨u, w, hu, hw, hr⟩ =>
    (mk_evals hb h.closed o [_, _] [u, w] v rfl (.cons (ref_evals h hk hu) (.cons (ref_evals h hk hw) .nil)) hr).2.2
  | .plain o as, v, hb, ⟨us, hu, hr⟩ => by
    refine (mk_evals hb h.closed o (as.map (Ref.id xs y gy ts)) us v (by simp [ctorApp]) ?_ hr).2.2
    clear hr hb
    induction hu with
    | nil => exact .nil
    | cons h1 _ ih => exact .cons (ref_evals h hk h1) ih
  | .like o as _, v, hb, ⟨us, hu, hr⟩ => by
    refine (mk_evals hb h.closed o (as.map (Ref.id xs y gy ts)) us v (by simp [ctorApp]) ?_ hr).2.2
    clear hr hb
    induction hu with
    | nil => exact .nil
    | cons h1 _ ih => exact .cons (ref_evals h hk h1) ih
  | .withBp o as bps, v, hb, ⟨us, hu, hr⟩ => by
    have hG := (cmd_builds (W := True) (.inr trivial) hb).grows
    have ha : IsApp g' t o (as.map (Ref.id xs y gy ts)) := by
      obtain ⟨r, hr⟩ := build_node (lift_ok.1 hb)
      exact ⟨_, hr, rfl, by simp [Builder.toNode], rfl, rfl⟩
    refine evals_run ha ?_ hr
    clear hr hb ha
    induction hu with
    | nil => exact .nil
    | cons h1 _ ih => exact .cons (Evals.mono hG h.closed (ref_evals h hk h1)) ih
  | .un o a, v, hb, ⟨u, hu, e⟩ => by
    subst e
    exact (mk_evals hb h.closed (.un o) [_] [u] _ (unCtor_app o _) (.cons (ref_evals h hk hu) .nil) rfl).2.2
  | .scalar c, v, hb, e => by
    cases e
    exact (mk_evals hb h.closed (.scalar c) [] [] _ rfl .nil rfl).2.2
  | .vec l, v, hb, e => by
    cases e
    exact (mk_evals hb h.closed (.const (Prog.vec l)) [] [] _ rfl .nil rfl).2.2
  | .nth a n, v, hb, ⟨ha, hv⟩ => by
    subst ha
    have hb' := lift_ok.1 hb
    have hG := (cmd_builds (W := True) (.inr trivial) hb).grows
    obtain ⟨n', hn, h1, h2, h3, h4⟩ : ∃ nd, g'.nodes[t]? = some nd ∧ nd.op = .ident ∧ nd.incoming = [{ id := y, selector := n }] ∧ nd.placeholderName = none ∧
        nd.variableId = none := by
      obtain ⟨r, hr⟩ := build_node hb'
      exact ⟨_, hr, rfl, rfl, rfl, rfl⟩
    exact evals_nth (isApp_mono hG h.app) (forall₂_map fun x hx => Evals.mono hG h.closed (h.evals x hx)) h.run hv hn h1 h2 h3 h4

theorem vals_known {op : POp} {xs : List Nat} {y gy : Nat} {yv gv : Arr ℝ} {cs : List Cmd} {ws ws' : List (Option (Arr ℝ))} (hv : Vals op (xs.map p) yv gv cs ws ws') :
    ∀ {g g' : Graph POp} {ts ts' : List Nat}, GradCtx F N Z p op xs g y gy yv gv → Known F N g ts ws → runCmds xs y gy cs ts g = .ok (g', ts') →
      Grows g g' ∧ Known F N g' ts' ws' := by
  induction hv with
  | nil => intro g g' ts ts' _ hk h; cases h; exact ⟨grows_refl _, hk⟩
  | some hc _ ih =>
    intro g g' ts ts' hctx hk h
    simp only [runCmds, bind_ok] at h
    obtain ⟨⟨g1, t⟩, h1, h2⟩ := h
    have hG := (cmd_builds (W := True) (.inr trivial) h1).grows
    obtain ⟨G, K⟩ := ih (hctx.grows hG) ((hk.grows hG hctx.closed).snoc fun v e => by cases e; exact cmd_evals hctx hk h1 hc) h2
    exact ⟨hG.trans G, K⟩
  | none _ ih =>
    intro g g' ts ts' hctx hk h
    simp only [runCmds, bind_ok] at h
    obtain ⟨⟨g1, t⟩, h1, h2⟩ := h
    have hG := (cmd_builds (W := True) (.inr trivial) h1).grows
    obtain ⟨G, K⟩ := ih (hctx.grows hG) ((hk.grows hG hctx.closed).snoc fun v e => by cases e) h2
    exact ⟨hG.trans G, K⟩

/-- A gradient function that builds a list of tensors: the tensors with known values have these values. -/
theorem cmds_evals {op : POp} {xs : List Nat} {g g' : Graph POp} {y gy : Nat} {yv gv : Arr ℝ} {cs : List Cmd} {out : List (Option Ref)} {gxs : List (Option Nat)}
    {ws : List (Option (Arr ℝ))} (hctx : GradCtx F N Z p op xs g y gy yv gv) (h : gradCmds xs y gy cs out g = .ok (g', gxs))
    (hv : Vals op (xs.map p) yv gv cs [] ws) : Grows g g' ∧ ∃ ts, gxs = out.map (Option.map (Ref.id xs y gy ts)) ∧
      ∀ (k : Nat) v, ws[k]? = some (some v) → Evals (setting F N) g' (Ref.id xs y gy ts (.t k)) v := by
  obtain ⟨ts, h1, rfl⟩ := gradCmds_ok h
  obtain ⟨G, K⟩ := vals_known hv hctx ⟨rfl, by simp⟩ h1
  exact ⟨G, ts, rfl, K.2⟩

end

end Verif.Prog
