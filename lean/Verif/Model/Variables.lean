import Verif.Model.Graph
/-!
# Model of the variable environment

Covers `src/variable.rs`: registration, lookup, namespaces, saving and loading, and the lookup of variable tensors by name.

A Rust `String` is the list of its characters. An array is an element of an arbitrary type `A`; `RefCell` is not
modelled (a borrow is a read or a replacement of the array). A hash map is the list of its entries; functions that iterate over
a hash map take the iteration order as an argument `order`, which the theorems allow to be any permutation of the entries.
-/

namespace Verif

/-- Rust strings. -/
abbrev Str := List Char

/-- Models `FullName` (src/variable.rs:157-162). -/
structure FullName where
  ns : Str
  name : Str
deriving DecidableEq, Repr

/-- A hash map with keys `K` and values `Nat` (`FxHashMap<_, VariableID>`). -/
abbrev HMap (K : Type) := List (K × Nat)

namespace HMap
variable {K : Type} [DecidableEq K]

/-- `HashMap::get`. -/
def get (m : HMap K) (k : K) : Option Nat :=
  (m.find? (fun e => e.1 == k)).map (·.2)

/-- `HashMap::insert`: replaces the entry of an equal key. -/
def insert (m : HMap K) (k : K) (v : Nat) : HMap K :=
  (k, v) :: m.filter (fun e => e.1 != k)

/-- `Iterator::collect` into a hash map: inserts the entries one after the other, so that a later entry replaces an earlier one. -/
def collect (es : List (K × Nat)) : HMap K :=
  es.foldl (fun m e => m.insert e.1 e.2) []

end HMap

/-- Models `VariableEnvironment` (src/variable.rs:151-155). -/
structure VarEnv (A : Type) where
  arrays : List A
  names : HMap FullName

namespace VarEnv
variable {A : Type}

/-- Models `VariableEnvironment::new` (src/variable.rs:529-535). -/
def new : VarEnv A := ⟨[], []⟩

/-- Models `register_variable` (src/variable.rs:347-358), reached from every `*Slot::set` (src/variable.rs:291-345, 606-608). The
anonymous slots pass a random UUID as the name. -/
def register (env : VarEnv A) (ns name : Str) (a : A) : VarEnv A × Nat :=
  let nextId := env.arrays.length
  (⟨env.arrays ++ [a], env.names.insert ⟨ns, name⟩ nextId⟩, nextId)

/-- Models `VariableEnvironment::get_array_by_id` (src/variable.rs:659-665). -/
def getById (env : VarEnv A) (vid : Nat) : Option A := env.arrays[vid]?

/-- Replacing the contents of the array with a given id in place, through the `RefCell` returned by `get_array_by_id`
(src/variable.rs:238-243, 659-665) or by an op that mutates the variable (`as_view_mut`, src/variable.rs:694-703). An invalid id
gives no array to update. -/
def setById (env : VarEnv A) (vid : Nat) (a : A) : Option (VarEnv A) :=
  if vid < env.arrays.length then some { env with arrays := env.arrays.set vid a } else none

/-- Models `NamespaceTrait::get_array_by_name` (src/variable.rs:245-255). -/
def getByName (env : VarEnv A) (ns name : Str) : Except Panic (Option A) :=
  match env.names.get ⟨ns, name⟩ with
  | none => .ok none
  | some vid =>
    match env.arrays[vid]? with
    | some a => .ok (some a)
    | none => .error .badVariableId

/-- Replacing the contents of the array found by `NamespaceTrait::get_array_by_name` (src/variable.rs:245-255); nothing happens if the
name is not found. -/
def setByName (env : VarEnv A) (ns name : Str) (a : A) : Option (VarEnv A) :=
  match env.names.get ⟨ns, name⟩ with
  | none => none
  | some vid => env.setById vid a

/-- Models `NamespaceTrait::current_var_ids` (src/variable.rs:257-270). -/
def currentVarIds (order : List (FullName × Nat)) (ns : Str) : List Nat :=
  order.filterMap (fun e => if e.1.ns = ns then some e.2 else none)

/-- Models `NamespaceTrait::current_var_names` (src/variable.rs:272-285). -/
def currentVarNames (order : List (FullName × Nat)) (ns : Str) : List Str :=
  order.filterMap (fun e => if e.1.ns = ns then some e.1.name else none)

/-- Models `iter` over a namespace (src/variable.rs:398-412), the `unwrap` included. -/
def iterNs (env : VarEnv A) (ns : Str) : List (FullName × Nat) → Except Panic (List (Str × A))
  | [] => .ok []
  | e :: es =>
    if e.1.ns = ns then do
      match ← env.getByName ns e.1.name with
      | none => .error .variableNotFound
      | some a => do
        let rest ← env.iterNs ns es
        .ok ((e.1.name, a) :: rest)
    else env.iterNs ns es

/-- Models `VariableEnvironment::iter` (src/variable.rs:537-544). -/
def iterAll (env : VarEnv A) : List (Nat × A) :=
  env.arrays.zipIdx.map (fun p => (p.2, p.1))

/-! ### Saving and loading -/

/-- The separator used by `FullName::to_string` (src/variable.rs:228). -/
def sep : Char := Char.ofNat 1

/-- Models `FullName::to_string` (src/variable.rs:225-229). -/
def fullNameStr (n : FullName) : Str := n.ns ++ sep :: n.name

/-- Models `str::split` at the separator (used at src/variable.rs:571). -/
def splitSep : Str → List Str
  | [] => [[]]
  | c :: cs =>
    if c = sep then [] :: splitSep cs
    else
      match splitSep cs with
      | [] => [[c]]
      | p :: ps => (c :: p) :: ps

/-- Contents of a saved file: `SerializableVariableEnvironment` / `DeserializedVariableEnvironment` (src/variable.rs:470-480) after
JSON encoding. `J` is the type of encoded arrays. The concrete JSON syntax is not modelled. -/
structure File (J : Type) where
  arrays : List J
  names : HMap Str

/-- Models `prepare_for_serde` and `save` (src/variable.rs:546-553, 588-598). `enc` is the JSON encoding of one array;
`order` is the order in which the name map is iterated. IO errors are not modelled. -/
def save {J : Type} (enc : A → J) (env : VarEnv A) (order : List (FullName × Nat)) : File J :=
  ⟨env.arrays.map enc, HMap.collect (order.map (fun e => (fullNameStr e.1, e.2)))⟩

/-- Decodes all arrays; `none` when one cannot be decoded (the `?` at src/variable.rs:560). -/
def decodeAll {J : Type} (dec : J → Option A) : List J → Option (List A)
  | [] => some []
  | j :: js =>
    match dec j, decodeAll dec js with
    | some a, some as => some (a :: as)
    | _, _ => none

/-- The name read back from a saved key (src/variable.rs:571-577): the first two pieces; a panic if there is no second one. -/
def parseName (s : Str) : Except Panic FullName :=
  match splitSep s with
  | a :: b :: _ => .ok ⟨a, b⟩
  | _ => .error .variableNotFound

/-- The name map read back (src/variable.rs:567-580), before it is collected. -/
def parseNames : List (Str × Nat) → Except Panic (List (FullName × Nat))
  | [] => .ok []
  | e :: es => do
    let n ← parseName e.1
    let rest ← parseNames es
    .ok ((n, e.2) :: rest)

/-- Models `load`, `deserialize` and `load_internal` (src/variable.rs:487-490, 555-586). `none` is an `Err` (an array could not
be decoded). `order` is the order in which the deserialized name map is iterated. -/
def load {J : Type} (dec : J → Option A) (f : File J) (order : List (Str × Nat)) :
    Except Panic (Option (VarEnv A)) :=
  match decodeAll dec f.arrays with
  | none => .ok none
  | some arrays => do
    let es ← parseNames order
    .ok (some ⟨arrays, HMap.collect es⟩)

/-- Models `initialize` (src/variable.rs:492-502): on success replaces both fields, on error leaves the environment alone. -/
def initializeFrom {J : Type} (dec : J → Option A) (env : VarEnv A) (f : File J) (order : List (Str × Nat)) :
    Except Panic (VarEnv A × Bool) :=
  match load dec f order with
  | .error p => .error p
  | .ok none => .ok (env, false)
  | .ok (some e) => .ok (⟨e.arrays, e.names⟩, true)

end VarEnv

namespace Graph
variable {Op : Type} {A : Type}

/-- Models `Graph::variable_by_name` (src/variable.rs:728-753). -/
def variableByName (g : Graph Op) (varOp : Op) (env : VarEnv A) (ns name : Str) :
    Except Panic (Graph Op × Nat) :=
  match env.names.get ⟨ns, name⟩ with
  | some vid => g.variableById varOp vid
  | none => .error .variableNotFound

/-- Looks up the variable tensors of a list of variable ids in order. -/
def variablesById (g : Graph Op) (varOp : Op) : List Nat → Except Panic (Graph Op × List (Nat × Nat))
  | [] => .ok (g, [])
  | v :: vs => do
    let (g1, t) ← g.variableById varOp v
    let (g2, ts) ← g1.variablesById varOp vs
    .ok (g2, (v, t) :: ts)

/-- Models `Graph::var_tensors_by_id` (src/variable.rs:755-763): pairs of variable id and tensor (the iterator is consumed). -/
def varTensorsById (g : Graph Op) (varOp : Op) (env : VarEnv A) : Except Panic (Graph Op × List (Nat × Nat)) :=
  g.variablesById varOp (List.range env.arrays.length)

/-- Models `Graph::var_tensors_by_name` (src/variable.rs:765-781): pairs of variable name and tensor (the iterator is consumed). -/
def varTensorsByName (varOp : Op) (ns : Str) :
    Graph Op → List (FullName × Nat) → Except Panic (Graph Op × List (Str × Nat))
  | g, [] => .ok (g, [])
  | g, e :: es =>
    if e.1.ns = ns then do
      let (g1, t) ← g.variableById varOp e.2
      let (g2, ts) ← varTensorsByName varOp ns g1 es
      .ok (g2, (e.1.name, t) :: ts)
    else varTensorsByName varOp ns g es

end Graph
end Verif
