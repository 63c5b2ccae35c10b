import Verif.Lemmas.HoTotal
import Verif.Model.Hvp
import Verif.Spec.Hvp

/-! `_hessian_vector_product` as a program with two calls of `grad`. -/

namespace Verif.Prog
open Verif Verif.Graph Verif.Nd Verif.Hint Verif.Gradient Verif.Spec Verif.Eval
open scoped Topology

/-- The products as calls. -/
def mulCalls (l : List (Nat × Nat)) : List Call := l.map (fun p => .op (.mul p.1 p.2))

/-- `_hessian_vector_product` as calls after `n` results. -/
def hvpCalls (n : Nat) (ys xs vs : List Nat) : List Call :=
  .grad ys xs :: (mulCalls ((List.range' n xs.length).zip vs) ++ [.grad (List.range' (n + xs.length) xs.length) xs])

theorem exec_products {pick : Graph POp → List Nat → Nat} {fuel : Nat} : ∀ {l : List (Nat × Nat)} {g : Graph POp} {ids : List Nat}, (∀ p ∈ l, p.1 < ids.length ∧ p.2 < ids.length) →
    Prog.execFrom pick fuel (mulCalls l) g ids = match products g (l.map (fun p => (ids.getD p.1 0, ids.getD p.2 0))) with
      | .error p => some (.error p)
      | .ok (g', ts) => some (.ok (g', ids ++ ts)) := by
  intro l
  induction l with
  | nil => intro g ids _; simp [mulCalls, Prog.execFrom, products]
  | cons p l ih =>
    intro g ids hl
    simp only [mulCalls, List.map_cons, Prog.execFrom, products, Call.exec, Prog.mk, Stmt.rename, Stmt.ctor]
    cases hc : construct hintOps g (.binary .mul (ids.getD p.1 0) (ids.getD p.2 0)) with
    | error q => rfl
    | ok v =>
      obtain ⟨g1, t⟩ := v
      simp only [lift, bind, Except.bind]
      have e : (l.map (fun p => ((ids ++ [t]).getD p.1 0, (ids ++ [t]).getD p.2 0))) = l.map (fun p => (ids.getD p.1 0, ids.getD p.2 0)) :=
        List.map_congr_left fun p hp => by
          obtain ⟨h1, h2⟩ := hl p (List.mem_cons_of_mem _ hp)
          rw [getD_append_left h1, getD_append_left h2]
      have := ih (g := g1) (ids := ids ++ [t]) (fun p hp => by
        obtain ⟨h1, h2⟩ := hl p (List.mem_cons_of_mem _ hp)
        simp; omega)
      rw [e] at this
      refine this.trans ?_
      cases products g1 (l.map (fun p => (ids.getD p.1 0, ids.getD p.2 0))) with
      | error q => rfl
      | ok v => simp

theorem execFrom_append' {pick : Graph POp → List Nat → Nat} {fuel : Nat} {l l' : List Call} {g : Graph POp} {ids : List Nat} :
    Prog.execFrom pick fuel (l ++ l') g ids = match Prog.execFrom pick fuel l g ids with
      | some (.ok (g1, ids1)) => Prog.execFrom pick fuel l' g1 ids1
      | r => r := by
  induction l generalizing g ids with
  | nil => rfl
  | cons c l ih =>
    simp only [List.cons_append, Prog.execFrom]
    cases c.exec pick fuel g ids with
    | none => rfl
    | some r =>
      cases r with
      | error p => rfl
      | ok v => exact ih

theorem products_length : ∀ {l : List (Nat × Nat)} {g g' : Graph POp} {ts : List Nat}, products g l = .ok (g', ts) → ts.length = l.length := by
  intro l
  induction l with
  | nil => intro g g' ts h; cases h; rfl
  | cons p l ih =>
    intro g g' ts h
    simp only [products, bind_ok] at h
    obtain ⟨⟨g1, t⟩, _, ⟨g2, ts'⟩, h2, h3⟩ := h
    cases h3
    simp [ih h2]

theorem range'_getD {ids ts : List Nat} {n k : Nat} (hn : ids.length = n) (hk : ts.length = k) : (List.range' n k).map (fun a => (ids ++ ts).getD a 0) = ts := by
  subst hn hk
  apply List.ext_getElem
  · simp
  · intro j h1 h2
    simp only [List.getElem_map, List.getElem_range', one_mul]
    rw [List.getD_eq_getElem?_getD, List.getElem?_append_right (by omega)]
    simp [List.getElem?_eq_getElem h2]

theorem grad_length {pick : Graph POp → List Nat → Nat} {fuel : Nat} {g : Graph POp} {ys xs : List Nat} {r : GradResult POp} (h : Gradient.grad gradOps pick fuel g ys xs = some (.ok r)) :
    r.grads.length = xs.length := by
  unfold Gradient.grad at h
  split at h
  · cases h
  split at h
  · cases h
  split at h
  · cases h
  · cases h
  · split at h
    · cases h
    · rename_i hx
      cases h
      exact extractAll_length hx

/-- `_hessian_vector_product` makes these calls. -/
theorem hvp_exec {pick : Graph POp → List Nat → Nat} {fuel : Nat} {g : Graph POp} {ids ys xs vs : List Nat} (hv : ∀ v ∈ vs, v < ids.length) (hx : ∀ x ∈ xs, x < ids.length)
    (hlen : vs.length = xs.length) :
    (Prog.execFrom pick fuel (hvpCalls ids.length ys xs vs) g ids = none ↔
      hvp pick fuel g (ys.map (fun k => ids.getD k 0)) (xs.map (fun k => ids.getD k 0)) (vs.map (fun k => ids.getD k 0)) = none) ∧
    (∀ p, Prog.execFrom pick fuel (hvpCalls ids.length ys xs vs) g ids = some (.error p) ↔
      hvp pick fuel g (ys.map (fun k => ids.getD k 0)) (xs.map (fun k => ids.getD k 0)) (vs.map (fun k => ids.getD k 0)) = some (.error p)) ∧
    ∀ r, hvp pick fuel g (ys.map (fun k => ids.getD k 0)) (xs.map (fun k => ids.getD k 0)) (vs.map (fun k => ids.getD k 0)) = some (.ok r) →
      ∃ mid, mid.length = xs.length + xs.length ∧ Prog.execFrom pick fuel (hvpCalls ids.length ys xs vs) g ids = some (.ok (r.g, ids ++ mid ++ r.grads)) := by
  simp only [hvpCalls, Prog.execFrom, Call.exec, hvp]
  cases h1 : Gradient.grad gradOps pick fuel g (ys.map (fun k => ids.getD k 0)) (xs.map (fun k => ids.getD k 0)) with
  | none => simp
  | some r1 =>
    cases r1 with
    | error p => simp
    | ok r1 =>
      have hl1 : r1.grads.length = xs.length := by simpa using grad_length h1
      simp only
      rw [execFrom_append', exec_products (fun p hp => by
        obtain ⟨h2, h3⟩ := List.of_mem_zip hp
        rw [List.mem_range'_1] at h2
        have := hv _ h3
        simp; omega)]
      have e : (((List.range' ids.length xs.length).zip vs).map (fun p => ((ids ++ r1.grads).getD p.1 0, (ids ++ r1.grads).getD p.2 0))) =
          r1.grads.zip (vs.map (fun k => ids.getD k 0)) := by
        have e1 := range'_getD (ids := ids) (ts := r1.grads) rfl hl1
        have e2 : vs.map (fun k => (ids ++ r1.grads).getD k 0) = vs.map (fun k => ids.getD k 0) := List.map_congr_left fun v hvv => getD_append_left (hv v hvv)
        rw [congrArg₂ List.zip e1.symm e2.symm, List.zip_map]
        rfl
      rw [e]
      cases h2 : products r1.g (r1.grads.zip (vs.map (fun k => ids.getD k 0))) with
      | error p => simp
      | ok v =>
        obtain ⟨g2, ps⟩ := v
        have hl2 : ps.length = xs.length := by rw [products_length h2]; simp [hl1, hlen]
        have e1 : (List.range' (ids.length + xs.length) xs.length).map (fun a => (ids ++ r1.grads ++ ps).getD a 0) = ps :=
          range'_getD (by simp [hl1]) hl2
        have e2 : xs.map (fun k => (ids ++ r1.grads ++ ps).getD k 0) = xs.map (fun k => ids.getD k 0) := List.map_congr_left fun x hxx => by
          rw [List.append_assoc, getD_append_left (hx x hxx)]
        simp only [Prog.execFrom, Call.exec, e1, e2]
        cases h3 : Gradient.grad gradOps pick fuel g2 ps (xs.map (fun k => ids.getD k 0)) with
        | none => simp
        | some r3 =>
          cases r3 with
          | error p => simp
          | ok r3 =>
            refine ⟨by simp, by simp, fun r hr => ?_⟩
            cases hr
            exact ⟨r1.grads ++ ps, by simp [hl1, hl2], by simp⟩

/-! ## The meaning of the products -/

theorem fold_at {l : List (Nat × Nat)} {M : Meaning} {I : Point} {k : Nat} (h : k < (M.value I).length) : ((mulCalls l).foldl Meaning.add M).at_ I k = M.at_ I k := by
  induction l generalizing M with
  | nil => rfl
  | cons p l ih =>
    refine (ih (M := M.add (.op (.mul p.1 p.2))) ?_).trans (add_at h)
    show k < (M.value I ++ [_]).length
    simp; omega

theorem fold_length {l : List (Nat × Nat)} {M : Meaning} {I : Point} : (((mulCalls l).foldl Meaning.add M).value I).length = (M.value I).length + l.length := by
  induction l generalizing M with
  | nil => rfl
  | cons p l ih =>
    refine (ih (M := M.add (.op (.mul p.1 p.2)))).trans ?_
    show (M.value I ++ [_]).length + _ = _
    simp; omega

theorem fold_sum {l : List (Nat × Nat)} {M : Meaning} {I : Point} (h : ∀ p ∈ l, p.1 < (M.value I).length ∧ p.2 < (M.value I).length) :
    ((mulCalls l).foldl Meaning.add M).sum (List.range' (M.value I).length l.length) I = (l.map (fun p => total (arith (· * ·) (M.at_ I p.1) (M.at_ I p.2)))).sum := by
  induction l generalizing M with
  | nil => rfl
  | cons p l ih =>
    have hlen : ((M.add (.op (.mul p.1 p.2))).value I).length = (M.value I).length + 1 := by
      show (M.value I ++ [_]).length = _
      simp
    have := ih (M := M.add (.op (.mul p.1 p.2))) (fun q hq => by
      obtain ⟨h1, h2⟩ := h q (List.mem_cons_of_mem _ hq)
      rw [hlen]; omega)
    rw [hlen] at this
    simp only [Meaning.sum, List.length_cons, List.range'_succ, List.map_cons, List.sum_cons, mulCalls, List.foldl_cons] at this ⊢
    refine congrArg₂ _ ?_ (this.trans ?_)
    · have e := fold_at (l := l) (M := M.add (.op (.mul p.1 p.2))) (I := I) (k := (M.value I).length) (by rw [hlen]; omega)
      rw [mulCalls] at e
      rw [e]
      show total ((M.value I ++ [opValue I (M.at_ I) (.mul p.1 p.2)]).getD _ noArr) = _
      rw [getD_append_right (Nat.le_refl _), Nat.sub_self]
      rfl
    · refine congrArg List.sum (List.map_congr_left fun q hq => ?_)
      obtain ⟨h1, h2⟩ := h q (List.mem_cons_of_mem _ hq)
      rw [add_at h1, add_at h2]

theorem fold_leaves {l : List (Nat × Nat)} {M : Meaning} : ((mulCalls l).foldl Meaning.add M).leaves = M.leaves ++ List.replicate l.length none := by
  induction l generalizing M with
  | nil => simp [mulCalls]
  | cons p l ih =>
    refine (ih (M := M.add (.op (.mul p.1 p.2)))).trans ?_
    simp [Meaning.add, leafOf, List.replicate_succ]

theorem fold_scoped {l : List (Nat × Nat)} {M : Meaning} (hM : M.wellScoped) (h : ∀ p ∈ l, p.1 < M.leaves.length ∧ p.2 < M.leaves.length) :
    ((mulCalls l).foldl Meaning.add M).wellScoped := by
  induction l generalizing M with
  | nil => exact hM
  | cons p l ih =>
    refine ih (M := M.add (.op (.mul p.1 p.2))) ⟨hM, ?_, fun _ _ e => by cases e⟩ fun q hq => ?_
    · simpa [Stmt.args] using h p (by simp)
    · obtain ⟨h1, h2⟩ := h q (List.mem_cons_of_mem _ hq)
      simp [Meaning.add]; omega

theorem fold_dom {l : List (Nat × Nat)} {M : Meaning} {I : Point} (hM : M.dom I) (hlt : ∀ p ∈ l, p.1 < (M.value I).length ∧ p.2 < (M.value I).length)
    (h : ∀ p ∈ l, Joinable (M.at_ I p.1).shape (M.at_ I p.2).shape) : ((mulCalls l).foldl Meaning.add M).dom I := by
  induction l generalizing M with
  | nil => exact hM
  | cons p l ih =>
    refine ih (M := M.add (.op (.mul p.1 p.2))) ⟨hM, h p (by simp)⟩ (fun q hq => ?_) fun q hq => ?_
    · obtain ⟨h1, h2⟩ := hlt q (List.mem_cons_of_mem _ hq)
      show _ < (M.value I ++ [_]).length ∧ _ < (M.value I ++ [_]).length
      simp; omega
    · obtain ⟨h1, h2⟩ := hlt q (List.mem_cons_of_mem _ hq)
      rw [add_at h1, add_at h2]
      exact h q (List.mem_cons_of_mem _ hq)

theorem hasDerivAt_list {α : Type} {l : List α} {f : α → ℝ → ℝ} {f' : α → ℝ} {c : ℝ} (h : ∀ b ∈ l, HasDerivAt (f b) (f' b) c) :
    HasDerivAt (fun u => (l.map (fun b => f b u)).sum) ((l.map f').sum) c := by
  induction l with
  | nil => simpa using hasDerivAt_const c (0 : ℝ)
  | cons a l ih =>
    simp only [List.map_cons, List.sum_cons]
    exact (h a (by simp)).fun_add (ih fun b hb => h b (by simp [hb]))

theorem deriv_pairs {α : Type} {l : List α} {S : α → Finset (List Nat)} {F : α → List Nat → ℝ → ℝ} {c : α → List Nat → ℝ} (h : ∀ b ∈ l, ∀ j ∈ S b, DifferentiableAt ℝ (F b j) 0) :
    deriv (fun u => (l.map (fun b => ∑ j ∈ S b, F b j u * c b j)).sum) 0 = (l.map (fun b => ∑ j ∈ S b, deriv (F b j) 0 * c b j)).sum :=
  (hasDerivAt_list (f := fun b u => ∑ j ∈ S b, F b j u * c b j) fun b hb => HasDerivAt.fun_sum fun j hj => (h b hb j hj).hasDerivAt.mul_const _).deriv

theorem joinShape_self (s : List Nat) : joinShape s s = s := by
  cases s with
  | nil => rfl
  | cons d s =>
    show List.zipWith max (d :: s) (d :: s) = _
    rw [List.zipWith_self]
    simp

theorem joinable_self {s : List Nat} (hp : ∀ d ∈ s, 0 < d) : Joinable s s := by
  refine ⟨hp, hp, .inr (.inr ?_)⟩
  clear hp
  induction s with
  | nil => exact .nil
  | cons d s ih => exact .cons (.inl rfl) ih

theorem total_mul {a b : Arr ℝ} {s : List Nat} (ha : a.shape = s) (hb : b.shape = s) : total (arith (· * ·) a b) = ∑ j ∈ idxs s, a.get j * b.get j := by
  have hp : ∀ {s i : List Nat}, InB i s → joinPos s i = i := by
    intro s i h
    induction h with
    | nil => rfl
    | @cons k d i s hk _ ih =>
      unfold joinPos at ih ⊢
      rw [List.zipWith_cons_cons, ih]
      congr 1
      split <;> omega
  have e : (arith (· * ·) a b).shape = s := by
    show joinShape a.shape b.shape = s
    rw [ha, hb, joinShape_self]
  unfold total
  rw [e]
  refine Finset.sum_congr rfl fun j hjm => ?_
  have hin := mem_idxs.1 hjm
  show a.get (joinPos a.shape j) * b.get (joinPos b.shape j) = _
  rw [ha, hb, hp hin]

section
variable {B : Bool} {g : Graph POp} {ids : List Nat} {M : Meaning}

/-- What is required of the arguments, and what it says about the calls. -/
structure HvpArgs (M : Meaning) (ys xs vs : List Nat) (ls : List Leaf) : Prop where
  scoped_ : M.wellScoped
  yin : ∀ y ∈ ys, y < M.leaves.length
  vin : ∀ v ∈ vs, v < M.leaves.length
  len : vs.length = xs.length
  leaves : List.Forall₂ (fun x leaf => M.leaves[x]? = some (some leaf)) xs ls
  nodup : ls.Nodup

/-- The programs after the products and after all calls. -/
noncomputable def afterProducts (M : Meaning) (ys xs vs : List Nat) : Meaning := (mulCalls ((List.range' M.leaves.length xs.length).zip vs)).foldl Meaning.add (M.add (.grad ys xs))

theorem after_all {ys xs vs : List Nat} : (hvpCalls M.leaves.length ys xs vs).foldl Meaning.add M =
    (afterProducts M ys xs vs).add (.grad (List.range' (M.leaves.length + xs.length) xs.length) xs) := by
  simp [hvpCalls, afterProducts, List.foldl_append]

theorem HvpArgs.lenLs {ys xs vs : List Nat} {ls : List Leaf} (h : HvpArgs M ys xs vs ls) : ls.length = xs.length := h.leaves.length_eq.symm

theorem HvpArgs.pairs {ys xs vs : List Nat} {ls : List Leaf} (h : HvpArgs M ys xs vs ls) :
    ∀ p ∈ (List.range' M.leaves.length xs.length).zip vs, p.1 < (M.add (.grad ys xs)).leaves.length ∧ p.2 < (M.add (.grad ys xs)).leaves.length := by
  intro p hp
  obtain ⟨h2, h3⟩ := List.of_mem_zip hp
  rw [List.mem_range'_1] at h2
  have := h.vin _ h3
  simp [Meaning.add]; omega

theorem HvpArgs.first {ys xs vs : List Nat} {ls : List Leaf} (h : HvpArgs M ys xs vs ls) : (M.add (.grad ys xs)).wellScoped := ⟨h.scoped_, h.yin, ls, h.leaves, h.nodup⟩

theorem HvpArgs.leavesAfter {ys xs vs : List Nat} {ls : List Leaf} (h : HvpArgs M ys xs vs ls) :
    (afterProducts M ys xs vs).leaves = M.leaves ++ (xs.map (fun _ => none) ++ List.replicate xs.length none) := by
  rw [afterProducts, fold_leaves]
  have := h.len
  simp [Meaning.add]
  omega

theorem HvpArgs.all {ys xs vs : List Nat} {ls : List Leaf} (h : HvpArgs M ys xs vs ls) : ((hvpCalls M.leaves.length ys xs vs).foldl Meaning.add M).wellScoped := by
  rw [after_all]
  refine ⟨fold_scoped h.first h.pairs, fun y hy => ?_, ls, forall₂_imp_mem h.leaves (fun x leaf _ e => ?_), h.nodup⟩
  · rw [List.mem_range'_1] at hy
    rw [h.leavesAfter]
    simp; omega
  · rw [h.leavesAfter, List.getElem?_append_left (List.getElem?_eq_some_iff.1 e).1]
    exact e

theorem HvpArgs.nth {ys xs vs : List Nat} {ls : List Leaf} (h : HvpArgs M ys xs vs ls) {j : Nat} (hj : j < xs.length) :
    M.leaves[xs[j]]? = some (some (ls[j]'(by rw [h.lenLs]; exact hj))) := by
  simpa using h.leaves.get hj (by rw [h.lenLs]; exact hj)

/-- Element of the first gradient. -/
theorem HvpArgs.gradAt (hM : ∀ I, (M.value I).length = M.leaves.length) {ys xs vs : List Nat} {ls : List Leaf} (h : HvpArgs M ys xs vs ls) {j : Nat} (hj : j < xs.length) (I : Point) :
    (M.add (.grad ys xs)).at_ I (M.leaves.length + j) =
      ofFn (M.at_ I xs[j]).shape (fun i => deriv (fun u => M.sum ys (I.nudge (ls[j]'(by rw [h.lenLs]; exact hj)) i u)) 0) := by
  show (M.value I ++ xs.map (M.partials ys I)).getD _ noArr = _
  rw [getD_append_right (by rw [hM]; omega), hM, Nat.add_sub_cancel_left, List.getD_eq_getElem?_getD, List.getElem?_map, List.getElem?_eq_getElem hj]
  simp only [Option.map_some, Option.getD_some, Meaning.partials, h.nth hj]

theorem HvpArgs.domAll (hM : ∀ I, (M.value I).length = M.leaves.length) {ys xs vs : List Nat} {ls : List Leaf} (h : HvpArgs M ys xs vs ls) {I : Point} (hd : M.dom I)
    (hsh : List.Forall₂ (fun x v => (M.at_ I v).shape = (M.at_ I x).shape ∧ ∀ d ∈ (M.at_ I x).shape, 0 < d) xs vs) :
    ((hvpCalls M.leaves.length ys xs vs).foldl Meaning.add M).dom I := by
  rw [after_all]
  have hlen : ((M.add (.grad ys xs)).value I).length = (M.add (.grad ys xs)).leaves.length := by
    show (M.value I ++ _).length = (M.leaves ++ _).length
    simp [hM]
  refine fold_dom (M := M.add (.grad ys xs)) hd (fun p hp => by rw [hlen]; exact h.pairs p hp) fun p hp => ?_
  obtain ⟨j, hj, rfl⟩ := List.getElem_of_mem hp
  have hj1 : j < xs.length := by simp at hj; omega
  have hj2 : j < vs.length := by simp at hj; omega
  rw [List.getElem_zip]
  simp only [List.getElem_range', one_mul]
  rw [h.gradAt hM hj1, add_at (by rw [hM]; exact h.vin _ (List.getElem_mem _))]
  obtain ⟨e, hp⟩ : (M.at_ I vs[j]).shape = (M.at_ I xs[j]).shape ∧ ∀ d ∈ (M.at_ I xs[j]).shape, 0 < d := by simpa using hsh.get hj1 hj2
  rw [e]
  exact joinable_self hp

/-- The sum of the products, near the point. -/
theorem hvp_near (h : RunOk B g ids M) {ys xs vs : List Nat} {ls : List Leaf} (ha : HvpArgs M ys xs vs ls)
    {I : Point} (hd : M.dom I) (hsh : List.Forall₂ (fun x v => (M.at_ I v).shape = (M.at_ I x).shape ∧ ∀ d ∈ (M.at_ I x).shape, 0 < d) xs vs)
    (hconst : ∀ v ∈ vs, ∀ leaf ∈ ls, ∀ i u, M.at_ (I.nudge leaf i u) v = M.at_ I v) {a : Leaf} (hk : a ∈ ls) (i : List Nat) :
    ∀ᶠ u in 𝓝 (0 : ℝ), (afterProducts M ys xs vs).sum (List.range' (M.leaves.length + xs.length) xs.length) (I.nudge a i u) =
      ((ls.zip vs).map (fun b => ∑ j ∈ idxs (M.at_ I b.2).shape, deriv (fun w => M.sum ys ((I.nudge a i u).nudge b.1 j w)) 0 * (M.at_ I b.2).get j)).sum := by
  have hxin : ∀ x ∈ xs, x < M.leaves.length := fun x hx => by
    obtain ⟨leaf, _, e⟩ := forall₂_mem_left ha.leaves hx
    exact (List.getElem?_eq_some_iff.1 e).1
  have hshape : ∀ᶠ u in 𝓝 (0 : ℝ), ∀ x ∈ xs.toFinset, (M.at_ (I.nudge a i u) x).shape = (M.at_ I x).shape := by
    rw [Filter.eventually_all_finset]
    intro x hx
    exact (h.moves hd a i (hxin x (List.mem_toFinset.1 hx))).1
  filter_upwards [hshape] with u hu
  have hl1 : ((M.add (.grad ys xs)).value (I.nudge a i u)).length = M.leaves.length + xs.length := by
    show (M.value _ ++ _).length = _
    simp [h.vlen]
  have hl1' : (M.add (.grad ys xs)).leaves.length = M.leaves.length + xs.length := by
    show (M.leaves ++ _).length = _
    simp
  have hs := fold_sum (l := (List.range' M.leaves.length xs.length).zip vs) (M := M.add (.grad ys xs)) (I := I.nudge a i u) (fun p hp => by
    rw [hl1, ← hl1']; exact ha.pairs p hp)
  have hzl : ((List.range' M.leaves.length xs.length).zip vs).length = xs.length := by simp [ha.len]
  rw [hl1, hzl] at hs
  rw [afterProducts, hs]
  congr 1
  apply List.ext_getElem
  · simp [ha.lenLs]
  · intro j hj1 hj2
    have hjx : j < xs.length := by simpa [ha.len] using hj1
    have hjv : j < vs.length := by rw [ha.len]; exact hjx
    have hjl : j < ls.length := by rw [ha.lenLs]; exact hjx
    simp only [List.getElem_map, List.getElem_zip, List.getElem_range', one_mul]
    have hvv : M.at_ (I.nudge a i u) vs[j] = M.at_ I vs[j] := hconst _ (List.getElem_mem _) _ hk _ _
    rw [ha.gradAt h.vlen hjx, add_at (by rw [h.vlen]; exact ha.vin _ (List.getElem_mem _)), hvv]
    obtain ⟨e, _⟩ : (M.at_ I vs[j]).shape = (M.at_ I xs[j]).shape ∧ ∀ d ∈ (M.at_ I xs[j]).shape, 0 < d := by simpa using hsh.get hjx hjv
    refine total_mul ?_ rfl
    show (M.at_ (I.nudge a i u) xs[j]).shape = _
    rw [hu _ (List.mem_toFinset.2 (List.getElem_mem _)), e]

/-- The first gradient is differentiable. -/
theorem hvp_diff (h : RunOk B g ids M) {g1 : Graph POp} {ids1 ys xs vs : List Nat} {ls : List Leaf} (hr1 : RunOk B g1 ids1 (M.add (.grad ys xs))) (ha : HvpArgs M ys xs vs ls)
    {I : Point} (hd : M.dom I) (hsh : List.Forall₂ (fun x v => (M.at_ I v).shape = (M.at_ I x).shape ∧ ∀ d ∈ (M.at_ I x).shape, 0 < d) xs vs) (a : Leaf) (i : List Nat)
    {b : Leaf × Nat} (hb : b ∈ ls.zip vs) {j' : List Nat} (hj' : InB j' (M.at_ I b.2).shape) :
    DifferentiableAt ℝ (fun u => deriv (fun w => M.sum ys ((I.nudge a i u).nudge b.1 j' w)) 0) 0 := by
  obtain ⟨j, hj, rfl⟩ := List.getElem_of_mem hb
  have hjl : j < ls.length := by simp at hj; omega
  have hjv : j < vs.length := by simp at hj; omega
  have hjx : j < xs.length := by rw [← ha.len]; exact hjv
  rw [List.getElem_zip] at hj' ⊢
  obtain ⟨e, _⟩ : (M.at_ I vs[j]).shape = (M.at_ I xs[j]).shape ∧ ∀ d ∈ (M.at_ I xs[j]).shape, 0 < d := by simpa using hsh.get hjx hjv
  have hlt : M.leaves.length + j < (M.add (.grad ys xs)).leaves.length := by
    show _ < (M.leaves ++ _).length
    simp; omega
  have hin : InB j' ((M.add (.grad ys xs)).at_ I (M.leaves.length + j)).shape := by
    rw [ha.gradAt h.vlen hjx]
    show InB j' (M.at_ I xs[j]).shape
    rw [← e]
    exact hj'
  have := (hr1.moves (I := I) hd a i hlt).2 j' hin
  simp only [ha.gradAt h.vlen hjx] at this
  exact this

/-- The sum of the products, differentiated. -/
theorem hvp_deriv (h : RunOk B g ids M) {g1 : Graph POp} {ids1 ys xs vs : List Nat} {ls : List Leaf} (hr1 : RunOk B g1 ids1 (M.add (.grad ys xs))) (ha : HvpArgs M ys xs vs ls)
    {I : Point} (hd : M.dom I) (hsh : List.Forall₂ (fun x v => (M.at_ I v).shape = (M.at_ I x).shape ∧ ∀ d ∈ (M.at_ I x).shape, 0 < d) xs vs)
    (hconst : ∀ v ∈ vs, ∀ leaf ∈ ls, ∀ i u, M.at_ (I.nudge leaf i u) v = M.at_ I v) {a : Leaf} (hk : a ∈ ls) (i : List Nat) :
    deriv (fun u => (afterProducts M ys xs vs).sum (List.range' (M.leaves.length + xs.length) xs.length) (I.nudge a i u)) 0 = M.hessianVector ys I (ls.zip vs) a i := by
  rw [Filter.EventuallyEq.deriv_eq (hvp_near h ha hd hsh hconst hk i)]
  unfold Meaning.hessianVector Meaning.second
  exact deriv_pairs (F := fun (b : Leaf × Nat) (j : List Nat) (u : ℝ) => deriv (fun w => M.sum ys ((I.nudge a i u).nudge b.1 j w)) 0)
    (S := fun b => idxs (M.at_ I b.2).shape) (c := fun b j => (M.at_ I b.2).get j) fun b hb j' hj' => hvp_diff h hr1 ha hd hsh a i hb (mem_idxs.1 hj')

theorem hvp_allowed {n : Nat} {ys xs vs : List Nat} : ∀ c ∈ hvpCalls n ys xs vs, c.Allowed B := by
  intro c hc
  simp only [hvpCalls, mulCalls, List.mem_cons, List.mem_append, List.mem_map, List.not_mem_nil, or_false] at hc
  rcases hc with rfl | ⟨p, _, rfl⟩ | rfl <;> trivial

/-- The second gradient is the product of the Hessian with the vector. -/
theorem hvp_values (h : RunOk B g ids M) {pick : Graph POp → List Nat → Nat} (hpick : PicksMax pick) {fuel : Nat} {ys xs vs : List Nat} {ls : List Leaf} (ha : HvpArgs M ys xs vs ls)
    {r : GradResult POp} (hr : hvp pick fuel g (ys.map (fun k => ids.getD k 0)) (xs.map (fun k => ids.getD k 0)) (vs.map (fun k => ids.getD k 0)) = some (.ok r))
    {I : Point} (hd : M.dom I) (hsh : List.Forall₂ (fun x v => (M.at_ I v).shape = (M.at_ I x).shape ∧ ∀ d ∈ (M.at_ I x).shape, 0 < d) xs vs)
    (hconst : ∀ v ∈ vs, ∀ leaf ∈ ls, ∀ i u, M.at_ (I.nudge leaf i u) v = M.at_ I v) :
    r.grads.length = xs.length ∧ ∃ (ids' : List Nat) (M' : Meaning), RunOk B r.g ids' M' ∧ M'.dom I ∧ ∀ (k x : Nat) (leaf : Leaf) (t : Nat), xs[k]? = some x → ls[k]? = some leaf → r.grads[k]? = some t →
      ∃ w, Evals I.setting r.g t w ∧ w.shape = (M.at_ I x).shape ∧ ∀ i, InB i w.shape → w.get i = M.hessianVector ys I (ls.zip vs) leaf i := by
  have hn : ids.length = M.leaves.length := h.leavesOk.len
  have hxin : ∀ x ∈ xs, x < ids.length := fun x hx => by
    obtain ⟨leaf, _, e⟩ := forall₂_mem_left ha.leaves hx
    rw [hn]
    exact (List.getElem?_eq_some_iff.1 e).1
  obtain ⟨mid, hmid, hex⟩ := (hvp_exec (pick := pick) (fuel := fuel) (g := g) (ys := ys) (fun v hv => by rw [hn]; exact ha.vin v hv) hxin ha.len).2.2 r hr
  rw [hn] at hex
  have h3 := h.execFrom hpick hex ha.all hvp_allowed
  have hd3 := ha.domAll h.vlen hd hsh
  -- the graph after the first gradient
  obtain ⟨g1, ids1, h1, _⟩ := execFrom_append (l := [Call.grad ys xs]) hex
  have hr1 : RunOk B g1 ids1 (M.add (.grad ys xs)) := h.execFrom hpick h1 ha.first (fun c hc => by rw [List.mem_singleton.1 hc]; trivial)
  have hlen : ids.length + mid.length + r.grads.length = (((hvpCalls M.leaves.length ys xs vs).foldl Meaning.add M).leaves).length := by
    rw [← h3.leavesOk.len]; simp; omega
  rw [after_all] at hlen
  have hla : ((afterProducts M ys xs vs).add (.grad (List.range' (M.leaves.length + xs.length) xs.length) xs)).leaves = M.leaves ++ (xs.map (fun _ => none) ++ List.replicate xs.length none) ++ xs.map (fun _ => none) := by
    show (afterProducts M ys xs vs).leaves ++ _ = _
    rw [ha.leavesAfter]
  have hgl : r.grads.length = xs.length := by
    rw [hla] at hlen
    simp at hlen
    omega
  refine ⟨hgl, _, _, h3, hd3, fun k x leaf t hx hleaf ht => ?_⟩
  obtain ⟨hk, rfl⟩ := List.getElem?_eq_some_iff.1 hx
  obtain ⟨hk', rfl⟩ := List.getElem?_eq_some_iff.1 hleaf
  have hpos : M.leaves.length + (xs.length + xs.length) + k < ((hvpCalls M.leaves.length ys xs vs).foldl Meaning.add M).leaves.length := by
    rw [after_all, hla]
    simp; omega
  obtain ⟨w, hw, hsame⟩ := h3.vals I hd3 _ hpos
  have hid : (ids ++ mid ++ r.grads).getD (M.leaves.length + (xs.length + xs.length) + k) 0 = t := by
    rw [getD_append_right (by simp; omega), List.getD_eq_getElem?_getD]
    have : M.leaves.length + (xs.length + xs.length) + k - (ids ++ mid).length = k := by simp; omega
    rw [this, ht]; rfl
  rw [hid] at hw
  have hv2 : ((afterProducts M ys xs vs).value I).length = M.leaves.length + (xs.length + xs.length) := by
    rw [afterProducts, fold_length]
    show (M.value I ++ _).length + _ = _
    simp [h.vlen]
    have := ha.len
    omega
  have hxlt : xs[k] < M.leaves.length := (List.getElem?_eq_some_iff.1 (ha.nth hk)).1
  have hval : ((hvpCalls M.leaves.length ys xs vs).foldl Meaning.add M).at_ I (M.leaves.length + (xs.length + xs.length) + k) =
      ofFn (M.at_ I xs[k]).shape (fun i => deriv (fun u => (afterProducts M ys xs vs).sum (List.range' (M.leaves.length + xs.length) xs.length) (I.nudge ls[k] i u)) 0) := by
    rw [after_all]
    show ((afterProducts M ys xs vs).value I ++ xs.map ((afterProducts M ys xs vs).partials _ I)).getD _ noArr = _
    rw [getD_append_right (by rw [hv2]; omega), hv2, Nat.add_sub_cancel_left, List.getD_eq_getElem?_getD, List.getElem?_map, hx]
    have hl : (afterProducts M ys xs vs).leaves[xs[k]]? = some (some ls[k]) := by
      rw [ha.leavesAfter, List.getElem?_append_left hxlt, ha.nth hk]
    have hat : (afterProducts M ys xs vs).at_ I xs[k] = M.at_ I xs[k] := by
      rw [afterProducts, fold_at (by show _ < (M.value I ++ _).length; simp [h.vlen]; omega), add_at (by rw [h.vlen]; exact hxlt)]
    simp only [Option.map_some, Option.getD_some, Meaning.partials, hl, hat]
  rw [hval] at hsame
  refine ⟨w, hw, hsame.1, fun i hi => ?_⟩
  rw [hsame.2 i hi]
  show deriv (fun u => (afterProducts M ys xs vs).sum (List.range' (M.leaves.length + xs.length) xs.length) (I.nudge ls[k] i u)) 0 = _
  exact hvp_deriv h hr1 ha hd hsh hconst (List.getElem_mem _) i

theorem hvp_returns (h : RunOk false g ids M) {pick : Graph POp → List Nat → Nat} (hpick : PicksMax pick) {ys xs vs : List Nat} {ls : List Leaf} (ha : HvpArgs M ys xs vs ls)
    (hney : ys ≠ []) (hnex : xs ≠ []) {I : Point} (hd : M.dom I)
    (hsh : List.Forall₂ (fun x v => (M.at_ I v).shape = (M.at_ I x).shape ∧ ∀ d ∈ (M.at_ I x).shape, 0 < d) xs vs) (hv : ∀ v ∈ vs, v < ids.length) (hx : ∀ x ∈ xs, x < ids.length) :
    ∃ N, ∀ fuel', N ≤ fuel' →
      (∃ r, hvp pick fuel' g (ys.map (fun k => ids.getD k 0)) (xs.map (fun k => ids.getD k 0)) (vs.map (fun k => ids.getD k 0)) = some (.ok r)) ∨
      hvp pick fuel' g (ys.map (fun k => ids.getD k 0)) (xs.map (fun k => ids.getD k 0)) (vs.map (fun k => ids.getD k 0)) = some (.error (.graph .graphTooLarge)) ∧
        numNodesCritical < 32 * (32 * (g.nodes.length + ys.length + xs.length + 1) + 6 * xs.length + 1) := by
  have hn : ids.length = M.leaves.length := h.leavesOk.len
  have hxl : 0 < xs.length := List.length_pos_iff.2 hnex
  obtain ⟨N, r, hr, hN⟩ := h.execFrom_total hpick (l := hvpCalls M.leaves.length ys xs vs) ha.all (ha.domAll h.vlen hd hsh) hvp_allowed (fun ys' xs' hm => by
      simp only [hvpCalls, mulCalls, List.mem_cons, List.mem_append, List.mem_map, List.not_mem_nil, or_false] at hm
      rcases hm with e | ⟨p, _, e⟩ | e
      · cases e; exact hney
      · cases e
      · cases e
        intro e
        have := congrArg List.length e
        rw [List.length_range', List.length_nil] at this
        omega) (fun name d hm => by simp [hvpCalls, mulCalls] at hm)
  have hroom : (hvpCalls M.leaves.length ys xs vs).foldl Call.room g.nodes.length = 32 * (32 * (g.nodes.length + ys.length + xs.length + 1) + 6 * xs.length + 1) := by
    have hm : ∀ (l : List (Nat × Nat)) (n : Nat), (mulCalls l).foldl Call.room n = n + 4 * l.length := by
      intro l
      induction l with
      | nil => intro n; rfl
      | cons p l ih =>
        intro n
        show (mulCalls l).foldl Call.room (n + 4) = _
        rw [ih]; simp; omega
    simp only [hvpCalls, List.foldl_cons, List.foldl_append, List.foldl_nil, hm, Call.room, List.length_zip, List.length_range', ha.len]
    omega
  rw [hroom] at hr
  refine ⟨N, fun fuel' hf => ?_⟩
  have he := hN fuel' hf
  rw [← hn] at he
  obtain ⟨h1, h2, _⟩ := hvp_exec (pick := pick) (fuel := fuel') (g := g) (ys := ys) hv hx ha.len
  cases hh : hvp pick fuel' g (ys.map (fun k => ids.getD k 0)) (xs.map (fun k => ids.getD k 0)) (vs.map (fun k => ids.getD k 0)) with
  | none => rw [h1.2 hh] at he; cases he
  | some r' =>
    cases r' with
    | ok r' => exact .inl ⟨r', rfl⟩
    | error p =>
      rw [(h2 p).2 hh] at he
      cases he
      rcases hr with ⟨v, e, _⟩ | ⟨e, hb⟩
      · cases e
      · cases e; exact .inr ⟨rfl, hb⟩

end

end Verif.Prog
