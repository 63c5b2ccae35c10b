import Verif.Lemmas.CallsGrad
import Verif.Model.Lstm
import Verif.Spec.HigherOrder

/-!
# Programs written with `emit`

The calls made so far and the arrays that they return (`St`), and what holds after further calls (`Wp`).
-/

namespace Verif.Prog
open Verif Verif.Nd Verif.Spec

theorem prefix_get {α : Type} {l l' : List α} (h : l <+: l') {k : Nat} {a : α} (hk : l[k]? = some a) : l'[k]? = some a := by
  obtain ⟨t, rfl⟩ := h
  rw [List.getElem?_append_left (List.getElem?_eq_some_iff.1 hk).1, hk]

theorem rename_id (s : Stmt) : s.rename (fun k => k) = s := by cases s <;> simp [Stmt.rename]

theorem returns_congr {fs : List (String × Arr ℝ)} {env : List (Arr ℝ)} {val val' : Nat → Arr ℝ} {v : Arr ℝ} {s : Stmt} (h : ∀ a ∈ s.args, val' a = val a)
    (hr : Returns fs env val v s) : Returns fs env val' v s := by
  cases s
  case addN x y zs =>
    have : (x :: y :: zs).map val' = (x :: y :: zs).map val := List.map_congr_left h
    simp only [Returns] at hr ⊢
    rw [this]; exact hr
  case dropout train ratio mask x =>
    have := h x (by simp [Stmt.args])
    cases train <;> simp only [Returns] at hr ⊢ <;> rw [this] <;> exact hr
  all_goals
    simp only [Stmt.args, List.mem_cons, List.not_mem_nil, or_false, forall_eq_or_imp, forall_eq] at h
    simp only [Returns] at hr ⊢
    simp_all

theorem fedAs_unique {fs : List (String × Arr ℝ)} {name : String} {v w : Arr ℝ} (h : FedAs fs name v) (h' : FedAs fs name w) : v = w := by
  obtain ⟨p, q, rfl, hp⟩ := h
  obtain ⟨p', q', e, hp'⟩ := h'
  induction p generalizing p' with
  | nil =>
    cases p' with
    | nil => exact (Prod.mk.inj (List.cons.inj e).1).2
    | cons a p' =>
      have := (List.cons.inj e).1
      exact absurd (by rw [← this]) (hp' a (by simp))
  | cons a p ih =>
    cases p' with
    | nil =>
      have := (List.cons.inj e).1
      exact absurd (by rw [this]) (hp a (by simp))
    | cons b p' => exact ih (fun f hf => hp f (by simp [hf])) p' (List.cons.inj e).2 fun f hf => hp' f (by simp [hf])

/-- The arrays of a program are determined by the variables and placeholders. -/
theorem denotes_unique {fs : List (String × Arr ℝ)} {env : List (Arr ℝ)} {l : List Stmt} (hs : Scoped l) {val val' : Nat → Arr ℝ} (h : Denotes fs env l val) (h' : Denotes fs env l val') :
    ∀ k < l.length, val k = val' k := by
  intro k
  induction k using Nat.strong_induction_on with
  | _ k ih =>
    intro hk
    have hk' : l[k]? = some l[k] := List.getElem?_eq_getElem hk
    have h1 := h k _ hk'
    have h2 := returns_congr (val' := val) (fun a ha => ih a (hs k _ hk' a ha) (by have := hs k _ hk' a ha; omega)) (h' k _ hk')
    generalize l[k] = s at h1 h2
    cases s <;> simp only [Returns] at h1 h2
    case placeholder name s => exact fedAs_unique h1.1 h2.1
    case sparseCE =>
      obtain ⟨_, h1⟩ := h1
      obtain ⟨_, h2⟩ := h2
      rw [h1] at h2
      exact (Prod.mk.inj (Except.ok.inj h2)).1
    case zeros =>
      obtain ⟨_, h1, e1⟩ := h1
      obtain ⟨_, h2, e2⟩ := h2
      rw [h1] at h2
      rw [e1, e2, Except.ok.inj h2]
    case ones =>
      obtain ⟨_, h1, e1⟩ := h1
      obtain ⟨_, h2, e2⟩ := h2
      rw [h1] at h2
      rw [e1, e2, Except.ok.inj h2]
    case conv2d =>
      obtain ⟨_, h1⟩ := h1
      obtain ⟨_, h2⟩ := h2
      rw [h1] at h2
      exact (Prod.mk.inj (Except.ok.inj h2)).1
    case maxPool =>
      obtain ⟨_, h1⟩ := h1
      obtain ⟨_, h2⟩ := h2
      rw [h1] at h2
      exact (Prod.mk.inj (Except.ok.inj h2)).1
    case dropout train ratio mask x =>
      cases train <;> simp only [Returns] at h1 h2
      · rw [h1, h2]
      · rw [h1] at h2; injection h2
    all_goals first
      | rw [h1, h2]
      | (rw [h1] at h2; injection h2)

/-- Calls and the arrays they return. -/
structure St where
  l : List Stmt
  vals : List (Arr ℝ)

/-- The array of a call. -/
noncomputable def St.val (σ : St) (k : Nat) : Arr ℝ := σ.vals.getD k noArr

/-- The arrays are those of the calls, and C61 applies. -/
structure St.Good (fs : List (String × Arr ℝ)) (env : List (Arr ℝ)) (vids : List Nat) (σ : St) : Prop where
  len : σ.vals.length = σ.l.length
  inScope : Scoped σ.l
  dims : DimsOk σ.l
  den : Denotes fs env σ.l σ.val
  ok : ∀ s ∈ σ.l, StmtOk (Fixed σ.l vids) (FlatIn σ.l σ.val) σ.val s ∧ GradGivenFor (Fixed σ.l vids) s

/-- Further calls have been made. -/
def St.Le (σ τ : St) : Prop := σ.l <+: τ.l ∧ σ.vals <+: τ.vals

theorem St.Le.refl (σ : St) : σ.Le σ := ⟨List.prefix_rfl, List.prefix_rfl⟩
theorem St.Le.trans {σ τ υ : St} (h : σ.Le τ) (h' : τ.Le υ) : σ.Le υ := ⟨h.1.trans h'.1, h.2.trans h'.2⟩

/-- Call `k` returned an array with the property. -/
def St.Has (σ : St) (k : Nat) (P : Arr ℝ → Prop) : Prop := ∃ v, σ.vals[k]? = some v ∧ P v

/-- Call `k` was made and does not depend on the variables. -/
def St.Still (vids : List Nat) (σ : St) (k : Nat) : Prop := Fixed σ.l vids k

theorem St.Has.mono {σ τ : St} {k : Nat} {P : Arr ℝ → Prop} (h : σ.Has k P) (hle : σ.Le τ) : τ.Has k P := by
  obtain ⟨v, h1, h2⟩ := h
  exact ⟨v, prefix_get hle.2 h1, h2⟩

theorem fixed_mono {l l' : List Stmt} {vids : List Nat} (h : l <+: l') {k : Nat} (hf : Fixed l vids k) : Fixed l' vids k := by
  induction hf with
  | var h1 h2 => exact .var (prefix_get h h1) h2
  | shapeOf h1 => exact .shapeOf (prefix_get h h1)
  | sizeOf h1 => exact .sizeOf (prefix_get h h1)
  | stop h1 => exact .stop (prefix_get h h1)
  | call h1 h2 _ ih => exact .call (prefix_get h h1) h2 ih

theorem St.Still.mono {vids : List Nat} {σ τ : St} {k : Nat} (h : σ.Still vids k) (hle : σ.Le τ) : τ.Still vids k := fixed_mono hle.1 h

section wp
variable {fs : List (String × Arr ℝ)} {env : List (Arr ℝ)} {vids : List Nat} {α β : Type}

/-- After the calls that `m` makes in `σ`, `Q` holds. -/
def Wp (fs : List (String × Arr ℝ)) (env : List (Arr ℝ)) (vids : List Nat) (m : StateM (List Stmt) α) (σ : St) (Q : St → α → Prop) : Prop :=
  σ.Good fs env vids → ∃ vals, St.Good fs env vids ⟨(m σ.l).2, vals⟩ ∧ σ.Le ⟨(m σ.l).2, vals⟩ ∧ Q ⟨(m σ.l).2, vals⟩ (m σ.l).1

theorem wp_pure {σ : St} {a : α} {Q : St → α → Prop} (h : Q σ a) : Wp fs env vids (pure a) σ Q := fun hg => ⟨σ.vals, hg, .refl σ, h⟩

theorem wp_bind {σ : St} {m : StateM (List Stmt) α} {f : α → StateM (List Stmt) β} {Q : St → β → Prop} (h : Wp fs env vids m σ (fun τ a => Wp fs env vids (f a) τ Q)) :
    Wp fs env vids (m >>= f) σ Q := by
  intro hg
  obtain ⟨v, h1, h2, h3⟩ := h hg
  obtain ⟨w, h4, h5, h6⟩ := h3 h1
  exact ⟨w, h4, h2.trans h5, h6⟩

theorem wp_mono {σ : St} {m : StateM (List Stmt) α} {Q R : St → α → Prop} (h : Wp fs env vids m σ Q) (hQ : ∀ τ a, σ.Le τ → Q τ a → R τ a) : Wp fs env vids m σ R := by
  intro hg
  obtain ⟨v, h1, h2, h3⟩ := h hg
  exact ⟨v, h1, h2, hQ _ _ h2 h3⟩

theorem St.Has.val_eq {σ : St} {k : Nat} {P : Arr ℝ → Prop} (h : σ.Has k P) : P (σ.val k) := by
  obtain ⟨v, h1, h2⟩ := h
  rw [St.val, List.getD_eq_getElem?_getD, h1]; exact h2

theorem St.Has.lt {σ : St} {k : Nat} {P : Arr ℝ → Prop} (h : σ.Has k P) : k < σ.vals.length := by
  obtain ⟨v, h1, _⟩ := h
  exact (List.getElem?_eq_some_iff.1 h1).1

/-- One more call. -/
theorem wp_emit {σ : St} {s : Stmt} {v : Arr ℝ} {Q : St → Nat → Prop} (ha : ∀ a ∈ s.args, a < σ.vals.length) (hr : Returns fs env σ.val v s)
    (hok : StmtOk (σ.Still vids) (FlatIn σ.l σ.val) σ.val s) (hgg : GradGivenFor (σ.Still vids) s) (hd : ∀ name d, s = .placeholder name d → ∀ n ∈ d, n = -1 ∨ 0 < n)
    (hQ : ∀ τ : St, σ.Le τ → τ.l[σ.l.length]? = some s → τ.vals[σ.l.length]? = some v → Q τ σ.l.length) : Wp fs env vids (emit s) σ Q := by
  intro hg
  have hle : σ.Le ⟨σ.l ++ [s], σ.vals ++ [v]⟩ := ⟨List.prefix_append _ _, List.prefix_append _ _⟩
  have hval : ∀ k < σ.vals.length, St.val ⟨σ.l ++ [s], σ.vals ++ [v]⟩ k = σ.val k := fun k hk => by
    simp only [St.val, List.getD_eq_getElem?_getD, List.getElem?_append_left hk]
  have hnew : St.val ⟨σ.l ++ [s], σ.vals ++ [v]⟩ σ.l.length = v := by
    simp [St.val, List.getD_eq_getElem?_getD, ← hg.len]
  have hsplit : ∀ {k : Nat} {c : Stmt}, (σ.l ++ [s])[k]? = some c → σ.l[k]? = some c ∧ k < σ.l.length ∨ k = σ.l.length ∧ c = s := by
    intro k c hk
    rcases lt_trichotomy k σ.l.length with h | h | h
    · rw [List.getElem?_append_left h] at hk; exact .inl ⟨hk, h⟩
    · subst h; simp at hk; exact .inr ⟨rfl, hk.symm⟩
    · have := (List.getElem?_eq_some_iff.1 hk).1
      simp at this; omega
  have hold : ∀ c ∈ σ.l, ∀ a ∈ c.args, a < σ.vals.length := fun c hc a hac => by
    obtain ⟨k, hk⟩ := List.mem_iff_getElem?.1 hc
    have h1 := hg.inScope k c hk a hac
    have h2 := (List.getElem?_eq_some_iff.1 hk).1
    rw [hg.len]; omega
  have hok' : ∀ c, (∀ a ∈ c.args, a < σ.vals.length) → StmtOk (Fixed σ.l vids) (FlatIn σ.l σ.val) σ.val c → GradGivenFor (Fixed σ.l vids) c →
      StmtOk (Fixed (σ.l ++ [s]) vids) (FlatIn (σ.l ++ [s]) (St.val ⟨σ.l ++ [s], σ.vals ++ [v]⟩)) (St.val ⟨σ.l ++ [s], σ.vals ++ [v]⟩) c ∧ GradGivenFor (Fixed (σ.l ++ [s]) vids) c := by
    intro c hc h1 h2
    have hfl : ∀ a i, FlatIn σ.l σ.val a i → FlatIn (σ.l ++ [s]) (St.val ⟨σ.l ++ [s], σ.vals ++ [v]⟩) a i := by
      rintro a i ⟨op, x, hk, hd⟩
      refine ⟨op, x, prefix_get hle.1 hk, ?_⟩
      rw [hval x (hold _ (List.mem_of_getElem? hk) x (by simp [Stmt.args]))]
      exact hd
    have h3 := stmtOk_rename (still' := Fixed (σ.l ++ [s]) vids) (p' := St.val ⟨σ.l ++ [s], σ.vals ++ [v]⟩) (f := fun k => k) (fun a _ h => fixed_mono hle.1 h) (fun a _ i h => hfl a i h) (fun a ha => hval a (hc a ha)) h1
    have h4 := gradGiven_rename (still' := Fixed (σ.l ++ [s]) vids) (f := fun k => k) (fun a _ h => fixed_mono hle.1 h) h2
    rw [rename_id] at h3 h4
    exact ⟨h3, h4⟩
  refine ⟨σ.vals ++ [v], ⟨?_, ?_, ?_, ?_, ?_⟩, hle, hQ _ hle ?_ ?_⟩
  · show (σ.vals ++ [v]).length = (σ.l ++ [s]).length
    simp [hg.len]
  · intro k c hk a hac
    rcases hsplit hk with ⟨h, _⟩ | ⟨rfl, rfl⟩
    · exact hg.inScope k c h a hac
    · rw [← hg.len]; exact ha a hac
  · intro name d hm
    rcases List.mem_append.1 hm with h | h
    · exact hg.dims name d h
    · exact hd name d (List.mem_singleton.1 h).symm
  · intro k c hk
    rcases hsplit hk with ⟨h, h'⟩ | ⟨rfl, rfl⟩
    · have e : St.val ⟨σ.l ++ [s], σ.vals ++ [v]⟩ k = σ.val k := hval k (by rw [hg.len]; exact h')
      have := hg.den k c h
      show Returns fs env (St.val ⟨σ.l ++ [s], σ.vals ++ [v]⟩) (St.val ⟨σ.l ++ [s], σ.vals ++ [v]⟩ k) c
      rw [e]
      exact returns_congr (fun a hac => hval a (hold c (List.mem_of_getElem? h) a hac)) this
    · show Returns fs env (St.val ⟨σ.l ++ [c], σ.vals ++ [v]⟩) (St.val ⟨σ.l ++ [c], σ.vals ++ [v]⟩ σ.l.length) c
      rw [hnew]
      exact returns_congr (fun a hac => hval a (ha a hac)) hr
  · intro c hm
    rcases List.mem_append.1 hm with h | h
    · exact hok' c (hold c h) (hg.ok c h).1 (hg.ok c h).2
    · rw [List.mem_singleton] at h
      subst h
      exact hok' c ha hok hgg
  · show (σ.l ++ [s])[σ.l.length]? = some s
    simp
  · show (σ.vals ++ [v])[σ.l.length]? = some v
    simp [← hg.len]

end wp

end Verif.Prog
