/-!
# Specification of the time tree (independent of the model)

A complete binary tree with `d` levels.  A node is the list of turns (`1` = left, `2` = right) from
the root.  Nothing here mentions the code.
-/

namespace Pixel.Spec

/-- All nodes of the tree with `d` levels, listed in pre-order (node, left subtree, right
subtree). -/
def preorder : Nat → List (List Nat)
  | 0 => []
  | d + 1 => [] :: ((preorder d).map (1 :: ·) ++ (preorder d).map (2 :: ·))

/-- `v` is a node of the tree with `d` levels. -/
def IsNode (d : Nat) (v : List Nat) : Prop := v.length < d ∧ ∀ x ∈ v, x = 1 ∨ x = 2

/-- `v` is the node with time stamp `t`: the `t`-th node in pre-order, counting from one. -/
def NodeAt (d t : Nat) (v : List Nat) : Prop := 1 ≤ t ∧ (preorder d)[t - 1]? = some v

/-- `t` is a time stamp of the tree with `d` levels. -/
def ValidTime (d t : Nat) : Prop := 1 ≤ t ∧ t ≤ 2 ^ d - 1

/-- `v` is a proper ancestor of `w`. -/
def ProperAncestor (v w : List Nat) : Prop := ∃ s, s ≠ [] ∧ w = v ++ s

/-- `v` is `w` or an ancestor of `w`. -/
def AncestorOrSelf (v w : List Nat) : Prop := ∃ s, w = v ++ s

/-- `s` is the right sibling of a node on the path to `v` at which the path turns left: there is a
left turn after `u`, and `s` is the right child of `u`. -/
def RightSiblingOnPath (v s : List Nat) : Prop := ∃ u w, v = u ++ 1 :: w ∧ s = u ++ [2]

end Pixel.Spec
