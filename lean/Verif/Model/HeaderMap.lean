import Verif.Model.Bytes

/-!
# `http::HeaderMap`

The `http` crate is not part of the repository; this is the interface hyper uses.  A map is kept as
its iteration order: a list of names (lower case) each with its values in order.
-/

namespace Hyper

/-- `http::HeaderMap`: name groups in iteration order. -/
abbrev HeaderMap := List (Bytes × List Bytes)

/-- Well-formed maps: names are distinct, every name has a value. -/
structure HeaderMap.Wf (m : HeaderMap) : Prop where
  nodup : (m.map Prod.fst).Nodup
  nonempty : ∀ g ∈ m, g.2 ≠ []

/-- `HeaderMap::iter`: every `(name, value)` pair. -/
def HeaderMap.fields (m : HeaderMap) : List (Bytes × Bytes) :=
  m.flatMap (fun g => g.2.map (fun v => (g.1, v)))

/-- `HeaderMap::into_iter` / `drain`: the name is given only with the first value of a group. -/
def HeaderMap.drain (m : HeaderMap) : List (Option Bytes × Bytes) :=
  m.flatMap (fun g =>
    match g.2 with
    | [] => []
    | v :: vs => (some g.1, v) :: vs.map (fun v => (none, v)))

/-- `HeaderMap::append`. -/
def HeaderMap.append : HeaderMap → Bytes → Bytes → HeaderMap
  | [], n, v => [(n, [v])]
  | (n', vs) :: m, n, v =>
    if n' = n then (n', vs ++ [v]) :: m else (n', vs) :: HeaderMap.append m n v

/-- `HeaderMap::insert`: replaces all values of the name, in place if present. -/
def HeaderMap.insert : HeaderMap → Bytes → Bytes → HeaderMap
  | [], n, v => [(n, [v])]
  | (n', vs) :: m, n, v =>
    if n' = n then (n', [v]) :: m else (n', vs) :: HeaderMap.insert m n v

/-- `HeaderMap::get_all`. -/
def HeaderMap.getAll : HeaderMap → Bytes → List Bytes
  | [], _ => []
  | (n', vs) :: m, n => if n' = n then vs else HeaderMap.getAll m n

/-- `HeaderMap::get`: the first value. -/
def HeaderMap.get (m : HeaderMap) (n : Bytes) : Option Bytes := (m.getAll n).head?

/-- `HeaderMap::contains_key`. -/
def HeaderMap.contains (m : HeaderMap) (n : Bytes) : Bool := m.any (fun g => g.1 == n)

/-- `HeaderMap::remove`.  (The real map moves its last entry into the hole, so the iteration order
of the other names may change; no property depends on it.) -/
def HeaderMap.remove (m : HeaderMap) (n : Bytes) : HeaderMap := m.filter (fun g => g.1 != n)

end Hyper
