import Verif.Base

/-! `HashMap<String, _>` and growing vectors. -/

namespace BurnFm

/-- A `HashMap<String, α>`: association list with distinct keys. The code only uses `get`, `get_mut`,
indexing and `insert` on these maps, never iteration, so the order of the list has no meaning. -/
abbrev SMap (α : Type) := List (Str × α)

/-- `map.get(k)` -/
def SMap.get {α : Type} (m : SMap α) (k : Str) : Option α := (m.find? (fun e => e.1 == k)).map (·.2)

/-- `map.insert(k, v)` -/
def SMap.insert {α : Type} (m : SMap α) (k : Str) (v : α) : SMap α :=
  if m.any (fun e => e.1 == k) then m.map (fun e => if e.1 = k then (k, v) else e) else m ++ [(k, v)]

/-- `vec.resize(n, d)` -/
def resize {α : Type} (xs : List α) (n : Nat) (d : α) : List α := xs.take n ++ List.replicate (n - xs.length) d

/-- `xs[i] = v` -/
def setIdx {α : Type} (xs : List α) (i : Nat) (v : α) : Res (List α) :=
  if i < xs.length then .ok (xs.set i v) else .error .index

/-- `xs[i]` borrowed mutably and updated with `f`. -/
def modIdx {α : Type} (xs : List α) (i : Nat) (f : α → α) : Res (List α) := do
  let a ← idx xs i
  setIdx xs i (f a)

/-- `s.split("::").collect()`: scanning from the left, never empty. -/
def splitCC : Str → List Str
  | [] => [[]]
  | ':' :: ':' :: cs => [] :: splitCC cs
  | c :: cs =>
    match splitCC cs with
    | p :: ps => (c :: p) :: ps
    | [] => [[c]]

/-- `a <= b` on Rust strings: lexicographic on the UTF-8 bytes, which is lexicographic on the code points
(UTF-8 keeps the order of code points). -/
def strLe : Str → Str → Bool
  | [], _ => true
  | _ :: _, [] => false
  | a :: as, b :: bs => if a.val < b.val then true else if b.val < a.val then false else strLe as bs

end BurnFm
