import Verif.At.Model

/-!
# The tree of commands

A model of how `make_at_dictionary.c` puts the commands into a table, and of how `command_search` looks them up.  `none` is a
read beyond the table or beyond the end of the line.
-/

namespace At

mutual
/-- `trie_node_t`: /repo/src/make_at_dictionary.c:447-455.  Of the 128 children only those which are there are kept, in
order; `first` and `last` are those of the first and of the last of them. -/
inductive T where
  | mk (entry : Nat) (kids : K)
inductive K where
  | nil
  | cons (c : Nat) (t : T) (rest : K)
end

/-- The nodes for what is left of a word which is not in the tree yet: /repo/src/make_at_dictionary.c:562-579. -/
def T.fresh (n : Nat) : List Nat → T
  | [] => .mk n .nil
  | c :: w => .mk 0 (.cons c (T.fresh n w) .nil)

mutual
/-- /repo/src/make_at_dictionary.c:547-581 (`trie_add`), for a word with a number. -/
def T.add (n : Nat) : T → List Nat → T
  | .mk _ k, [] => .mk n k
  | .mk e k, c :: w => .mk e (K.add n k c w)
def K.add (n : Nat) : K → Nat → List Nat → K
  | .nil, c, w => .cons c (T.fresh n w) .nil
  | .cons d t r, c, w =>
    if c = d then .cons d (T.add n t w) r
    else if c < d then .cons c (T.fresh n w) (.cons d t r)
    else .cons d t (K.add n r c w)
end

/-- The words in order, with numbers from 1: /repo/src/make_at_dictionary.c:667-669. -/
def build (t : T) (n : Nat) : List (List Nat) → T
  | [] => t
  | w :: ws => build (t.add (n + 1) w) (n + 1) ws

def K.last : K → Nat
  | .nil => 0
  | .cons c _ .nil => c
  | .cons _ _ r => r.last

/-- How much of the table a node takes, without its children: /repo/src/make_at_dictionary.c:496-510. -/
def K.own : K → Nat
  | .nil => 3
  | .cons c t r => (K.cons c t r).last - c + 1 + 3

mutual
/-- How much of the table a node and all below it take: /repo/src/make_at_dictionary.c:490-513
(`trie_recursive_add_node_numbers`). -/
def T.size : T → Nat
  | .mk _ k => k.own + k.size
def K.size : K → Nat
  | .nil => 0
  | .cons _ t r => t.size + r.size
end

/-- The places of the children, from character `i` on: /repo/src/make_at_dictionary.c:528-530.  Their numbers are those which
`trie_recursive_add_node_numbers` gives them, as it takes the nodes in the same order as they are written. -/
def K.table (i base : Nat) : K → List Nat
  | .nil => []
  | .cons c t r => List.replicate (c - i) 0 ++ (base + 1) :: r.table (c + 1) (base + t.size)

/-- /repo/src/make_at_dictionary.c:524-543, of one node. -/
def head (base e : Nat) : K → List Nat
  | .nil => [1, 0, e]
  | .cons c t r => c :: (K.cons c t r).last :: e :: (K.cons c t r).table c (base + (K.cons c t r).own)

mutual
/-- /repo/src/make_at_dictionary.c:516-545 (`trie_recursive_build_packed_trie`), at a place of the table. -/
def T.pack (base : Nat) : T → List Nat
  | .mk e k => head base e k ++ k.pack (base + k.own)
def K.pack (base : Nat) : K → List Nat
  | .nil => []
  | .cons _ t r => t.pack base ++ r.pack (base + t.size)
end

/-- /repo/src/at_interpreter.c:5722-5756 (`command_search`), from a place of the table. -/
def search (a : List Nat) (entry ptr : Nat) (u : List Nat) : Option Nat :=
  if ptr < a.length - 2 then do
    let index := upper (u.headD 0)
    let first ← a[ptr]?
    let last ← a[ptr + 1]?
    let entry ← a[ptr + 2]?
    if index < first ∨ index > last then some entry
    else do
      let p ← a[ptr + 3 + index - first]?
      if p = 0 then some entry
      else match u with
        | [] => none
        | _ :: u => search a entry (p - 1) u
  else some entry
termination_by u.length

end At
