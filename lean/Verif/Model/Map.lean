/-!
# Ordered maps

`std::collections::BTreeMap` (used at src/btf/type_information.rs:349-355) as an association list kept
in ascending key order. Only the operations the crate uses are modelled: `new`, `insert`, `get` and
iteration order.
-/

namespace Btf

/-- `BTreeMap<K, V>` (src/btf/type_information.rs:349-355): entries in ascending key order. -/
structure Map (K V : Type) where
  toList : List (K × V)
  deriving Repr, DecidableEq

namespace Map

variable {K V : Type} [DecidableEq K] [LT K] [DecidableLT K]

/-- `BTreeMap::new()` (src/btf/type_information.rs:462-464). -/
def empty : Map K V := ⟨[]⟩

/-- Insertion into a sorted association list (for src/btf/type_information.rs:474-478). -/
def insertList (k : K) (v : V) : List (K × V) → List (K × V)
  | [] => [(k, v)]
  | (k', v') :: rest =>
    if k = k' then (k, v) :: rest
    else if k < k' then (k, v) :: (k', v') :: rest
    else (k', v') :: insertList k v rest

/-- `BTreeMap::insert` (src/btf/type_information.rs:474-478; replaces the value of an existing key). -/
def insert (m : Map K V) (k : K) (v : V) : Map K V := ⟨insertList k v m.toList⟩

/-- Lookup in an association list (for src/btf/type_information.rs:496-520). -/
def getList (k : K) : List (K × V) → Option V
  | [] => none
  | (k', v') :: rest => if k = k' then some v' else getList k rest

/-- `BTreeMap::get` (src/btf/type_information.rs:496-520). -/
def get (m : Map K V) (k : K) : Option V := getList k m.toList

end Map

end Btf
