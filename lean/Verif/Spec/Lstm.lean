import Mathlib.Analysis.SpecialFunctions.Log.Basic
import Mathlib.Analysis.SpecialFunctions.Trigonometric.DerivHyp
import Verif.Spec.Layout

/-!
# Specification of an LSTM language model

The equations of the model, for real numbers.
-/

namespace Verif.Spec
open Verif Verif.Nd

/-- The logistic function. -/
noncomputable def sigma (a : ℝ) : ℝ := 1 / (1 + Real.exp (-a))

/-- The weights: matrices `wx`, `wh` (`dim` rows, `4 * dim` columns), the bias `b` (one row), the vectors of the words in the rows of `table`, and the matrix `pred` (`dim` rows, one column per word). -/
structure LstmWeights where
  wx : Arr ℝ
  wh : Arr ℝ
  b : Arr ℝ
  table : Arr ℝ
  pred : Arr ℝ

/-- A vector for each sentence. -/
abbrev Vecs := Nat → Nat → ℝ

/-- The gates, for the inputs `x` and the last outputs `h`: column `k` of `x wx + h wh + b`. -/
noncomputable def LstmWeights.gate (W : LstmWeights) (dim : Nat) (x h : Vecs) : Vecs := fun r k =>
  ∑ j ∈ Finset.range dim, x r j * W.wx.get [j, k] + ∑ j ∈ Finset.range dim, h r j * W.wh.get [j, k] + W.b.get [0, k]

/-- The cells: `σ(f) * c + σ(i) * tanh(g)`, where `i`, `f`, `g`, `o` are the four parts of the gates. -/
noncomputable def LstmWeights.cell (W : LstmWeights) (dim : Nat) (x h c : Vecs) : Vecs := fun r k =>
  sigma (W.gate dim x h r (dim + k)) * c r k + sigma (W.gate dim x h r k) * Real.tanh (W.gate dim x h r (2 * dim + k))

/-- The outputs: `σ(o) * tanh(c)`. -/
noncomputable def LstmWeights.output (W : LstmWeights) (dim : Nat) (x h c : Vecs) : Vecs := fun r k =>
  sigma (W.gate dim x h r (3 * dim + k)) * Real.tanh (W.cell dim x h c r k)

/-- The vectors of word `t` of each sentence `r`, if the sentences are made of the words `word r t`. -/
noncomputable def LstmWeights.embed (W : LstmWeights) (word : Nat → Nat → Nat) (t : Nat) : Vecs := fun r j => W.table.get [word r t, j]

/-- Outputs and cells after `t` words, starting with zeros. -/
noncomputable def LstmWeights.state (W : LstmWeights) (dim : Nat) (word : Nat → Nat → Nat) : Nat → Vecs × Vecs
  | 0 => (fun _ _ => 0, fun _ _ => 0)
  | t + 1 =>
    let s := W.state dim word t
    (W.output dim (W.embed word t) s.1 s.2, W.cell dim (W.embed word t) s.1 s.2)

/-- The score of word `v` as the word that follows the first `t` words of sentence `r`. -/
noncomputable def LstmWeights.score (W : LstmWeights) (dim : Nat) (word : Nat → Nat → Nat) (t r v : Nat) : ℝ :=
  ∑ j ∈ Finset.range dim, (W.state dim word t).1 r j * W.pred.get [j, v]

/-- The loss for sentence `r`: the sum, over the words after the first one, of `- log (exp s_w / ∑_v exp s_v)`, where `w` is the word. -/
noncomputable def LstmWeights.loss (W : LstmWeights) (dim vocab words : Nat) (word : Nat → Nat → Nat) (r : Nat) : ℝ :=
  ∑ t ∈ Finset.range words, -Real.log (Real.exp (W.score dim word (t + 1) r (word r (t + 1))) / ∑ v ∈ Finset.range vocab, Real.exp (W.score dim word (t + 1) r v))

/-- What is assumed of the sizes and the data: `n` sentences of `words + 1` words, numbers less than `vocab`. The layout `lay a` of the row sums of an array `a` is one that `into_shape` accepts. -/
structure Sentences (lay : Arr ℝ → List Int) (n dim vocab words : Nat) (s : Arr ℝ) (word : Nat → Nat → Nat) : Prop where
  n_pos : 0 < n
  dim_pos : 0 < dim
  words_pos : 0 < words
  shape : s.shape = [n, words + 1]
  word_is : ∀ r < n, ∀ t ≤ words, s.get [r, t] = word r t ∧ word r t < vocab
  layout : ∀ a : Arr ℝ, a.shape = [n, vocab] → Contig [n] (lay a)

/-- The shapes of the weights. -/
structure LstmWeights.Shapes (W : LstmWeights) (dim vocab : Nat) : Prop where
  wx : W.wx.shape = [dim, 4 * dim]
  wh : W.wh.shape = [dim, 4 * dim]
  b : W.b.shape = [1, 4 * dim]
  table : W.table.shape = [vocab, dim]
  pred : W.pred.shape = [dim, vocab]

/-- The arrays of the variables; the first variable is not used. -/
def LstmWeights.env (W : LstmWeights) (unused : Arr ℝ) : List (Arr ℝ) := [unused, W.table, W.wx, W.wh, W.b, W.pred]

/-- The weights with the one changed that is variable `vid`. -/
def LstmWeights.change (W : LstmWeights) (f : Arr ℝ → Arr ℝ) : Nat → LstmWeights
  | 1 => { W with table := f W.table }
  | 2 => { W with wx := f W.wx }
  | 3 => { W with wh := f W.wh }
  | 4 => { W with b := f W.b }
  | 5 => { W with pred := f W.pred }
  | _ => W

end Verif.Spec
