import Verif.Model.Basic

/-
Model of runtime/lib/rbtree.h and runtime/lib/rbtree.c.

The C nodes carry parent pointers; a pointer to a node is modelled as a
zipper: the subtree at that node together with the path of its ancestors.
Dereferencing NULL is the outcome `ub`.
-/
namespace Verif.Rb

/-- Node colours, rbtree.c:33-35.  `RBTREE_UNDEF` marks a node that is not
linked into a tree; such nodes are not part of a `Tree`. -/
inductive Color where
  | red | black
deriving Repr, DecidableEq, Inhabited

/-- `struct RbtreeNode` / `struct Rbtree`, rbtree.h:19-29 (parent pointers are
recovered by `Path`). -/
inductive Tree (α : Type) where
  | nil
  | node (c : Color) (l : Tree α) (v : α) (r : Tree α)
deriving Repr, DecidableEq, Inhabited

/-- One ancestor of a node: `L c v r` says that the node is the left child of
a node with colour `c`, payload `v`, right child `r`; `R` is symmetric. -/
inductive Frame (α : Type) where
  | L (c : Color) (v : α) (r : Tree α)
  | R (c : Color) (l : Tree α) (v : α)
deriving Repr, DecidableEq, Inhabited

/-- The chain of parent pointers (rbtree.h:21), nearest ancestor first. -/
abbrev Path (α : Type) := List (Frame α)

namespace Frame
variable {α : Type}
def color : Frame α → Color
  | L c _ _ => c
  | R c _ _ => c
def val : Frame α → α
  | L _ v _ => v
  | R _ _ v => v
def plug : Frame α → Tree α → Tree α
  | L c v r, t => .node c t v r
  | R c l v, t => .node c l v t
end Frame

/-- The whole tree seen from a location. -/
def zip {α : Type} : Tree α → Path α → Tree α
  | t, [] => t
  | t, f :: p => zip (f.plug t) p

/-- A non-NULL node pointer: the node's fields and its ancestors. -/
structure Loc (α : Type) where
  c : Color
  l : Tree α
  v : α
  r : Tree α
  path : Path α
deriving Repr, DecidableEq

namespace Loc
variable {α : Type}
/-- The tree that contains the node. -/
def tree (x : Loc α) : Tree α := zip (.node x.c x.l x.v x.r) x.path
end Loc

section
variable {α : Type}

/-- `n->color = RBTREE_BLACK` guarded by `if (n)`. -/
def blacken : Tree α → Tree α
  | .nil => .nil
  | .node _ l v r => .node .black l v r

/-- The search loop of `rbtree_get`, rbtree.h:39-65.  Returns the last visited
node (`*match`) and the last comparison result, `none` for an empty tree
(`*match == NULL`, result 0).  `cmp` is the `compare` argument of the macro;
it may itself be undefined (signed overflow). -/
def get (cmp : α → Res Int) : Tree α → Path α → Res (Option (Int × Loc α))
  | .nil, _ => .ok none
  | .node c l v r, p =>
    (cmp v).bind fun rc =>
      if rc < 0 then
        (get cmp r (.R c l v :: p)).bind fun
          | some m => .ok (some m)
          | none   => .ok (some (rc, ⟨c, l, v, r, p⟩))
      else if rc > 0 then
        (get cmp l (.L c v r :: p)).bind fun
          | some m => .ok (some m)
          | none   => .ok (some (rc, ⟨c, l, v, r, p⟩))
      else .ok (some (rc, ⟨c, l, v, r, p⟩))

/-- rbtree.c:37-57 on the subtree rooted at `n`; `q = n->r` is dereferenced. -/
def rotateLeft : Tree α → Res (Tree α)
  | .node c l v (.node c2 l2 v2 r2) => .ok (.node c2 (.node c l v l2) v2 r2)
  | _ => .ub "rotate_left: NULL dereference"

/-- rbtree.c:59-79 on the subtree rooted at `n`; `q = n->l` is dereferenced. -/
def rotateRight : Tree α → Res (Tree α)
  | .node c (.node c2 l2 v2 r2) v r => .ok (.node c2 l2 v2 (.node c r2 v r))
  | _ => .ub "rotate_right: NULL dereference"

/-- Colour test `u && u->color == RBTREE_RED`. -/
def isRed : Tree α → Bool
  | .node .red _ _ _ => true
  | _ => false

/-- `n->color` where `n` may be NULL. -/
def isBlackNode : Tree α → Bool
  | .node .black _ _ _ => true
  | _ => false

/-- rbtree.c:81-125 `set_fixup`; the first argument is the subtree at `n`, the
path holds `p`, `g`, ....  Returns the whole tree, with the root blackened. -/
def setFixup : Tree α → Path α → Res (Tree α)
  | n, [] => .ok (blacken n)
  | n, [p] =>
    -- p is the root; if it is red, `g` is NULL and `g->l` is dereferenced
    if p.color = .red then .ub "set_fixup: NULL grandparent"
    else .ok (blacken (zip n [p]))
  | n, p :: g :: rest =>
    if p.color = .black then .ok (blacken (zip n (p :: g :: rest)))
    else
      match g with
      | .L _ gv u =>
        if isRed u then
          setFixup (.node .red (blacken (p.plug n)) gv (blacken u)) rest
        else
          -- if (n == p->r) { rotate_left(p); n = p; p = n->p; }
          (match p with
           | .R _ _ _ => rotateLeft (p.plug n)
           | .L _ _ _ => .ok (p.plug n)).bind fun p' =>
          -- g->color = RED; p->color = BLACK; rotate_right(g)
          (rotateRight (.node .red (blacken p') gv u)).bind fun t =>
          .ok (blacken (zip t rest))
      | .R _ u gv =>
        if isRed u then
          setFixup (.node .red (blacken u) gv (blacken (p.plug n))) rest
        else
          (match p with
           | .L _ _ _ => rotateRight (p.plug n)
           | .R _ _ _ => .ok (p.plug n)).bind fun p' =>
          (rotateLeft (.node .red u gv (blacken p'))).bind fun t =>
          .ok (blacken (zip t rest))

/-- rbtree.c:127-144 `rbtree_set(self, p, prel, n)`.  The new node becomes the
left (`prel > 0`) or right child of `p`; whatever subtree was linked there is
overwritten.  With `p == NULL` the node becomes the root. -/
def set (p : Option (Loc α)) (prel : Int) (x : α) : Res (Tree α) :=
  match p with
  | none => setFixup (.node .red .nil x .nil) []
  | some p =>
    if prel = 0 then .abort "rbtree_set: prel != 0"
    else if prel > 0 then setFixup (.node .red .nil x .nil) (.L p.c p.v p.r :: p.path)
    else setFixup (.node .red .nil x .nil) (.R p.c p.l p.v :: p.path)

/-- The leftmost node below a location: `while (n->l) n = n->l;`. -/
def descendLeft (c : Color) (l : Tree α) (v : α) (r : Tree α) (p : Path α) : Loc α :=
  match l with
  | .nil => ⟨c, .nil, v, r, p⟩
  | .node c' l' v' r' => descendLeft c' l' v' r' (.L c v r :: p)

/-- The rightmost node below a location: `while (n->r) n = n->r;`. -/
def descendRight (c : Color) (l : Tree α) (v : α) (r : Tree α) (p : Path α) : Loc α :=
  match r with
  | .nil => ⟨c, l, v, .nil, p⟩
  | .node c' l' v' r' => descendRight c' l' v' r' (.R c l v :: p)

/-- rbtree.c:297-306. -/
def min : Tree α → Option (Loc α)
  | .nil => none
  | .node c l v r => some (descendLeft c l v r [])

/-- rbtree.c:308-317. -/
def max : Tree α → Option (Loc α)
  | .nil => none
  | .node c l v r => some (descendRight c l v r [])

/-- The climb of rbtree.c:330-333: `while ((p = n->p) && p->r == n) n = p;`. -/
def climbNext : Tree α → Path α → Option (Loc α)
  | _, [] => none
  | t, .L c v r :: p => some ⟨c, t, v, r, p⟩
  | t, .R c l v :: p => climbNext (.node c l v t) p

/-- The climb of rbtree.c:347-350. -/
def climbPrev : Tree α → Path α → Option (Loc α)
  | _, [] => none
  | t, .R c l v :: p => some ⟨c, l, v, t, p⟩
  | t, .L c v r :: p => climbPrev (.node c t v r) p

/-- rbtree.c:319-334 for a non-NULL node. -/
def next (n : Loc α) : Option (Loc α) :=
  match n.r with
  | .node c l v r => some (descendLeft c l v r (.R n.c n.l n.v :: n.path))
  | .nil => climbNext (.node n.c n.l n.v .nil) n.path

/-- rbtree.c:336-351 for a non-NULL node. -/
def prev (n : Loc α) : Option (Loc α) :=
  match n.l with
  | .node c l v r => some (descendRight c l v r (.L n.c n.v n.r :: n.path))
  | .nil => climbPrev (.node n.c .nil n.v n.r) n.path

/-- Result of one balancing step of rbtree.c:240-260 (or 270-290). -/
inductive Fix (α : Type) where
  /-- rotated, `n = self->root; break;` -/
  | done (t : Tree α)
  /-- sibling recoloured, `n = p; p = p->p; continue;`, the subtree at the new `n` -/
  | up (t : Tree α)

/-- rbtree.c:240-260: `n` is the left child of `p = (c, v)`, `s` the right one
(already known not to be red). -/
def fixLeft (n : Tree α) (c : Color) (v : α) (s : Tree α) : Res (Fix α) :=
  match s with
  | .nil => .ub "rbtree_remove: NULL sibling"
  | .node _ sl sv sr =>
    if !isRed sl && !isRed sr then
      .ok (.up (.node c n v (.node .red sl sv sr)))
    else
      (if !isRed sr then
        -- s->l->color = BLACK; s->color = RED; rotate_right(s); s = p->r
        match sl with
        | .nil => Res.ub "rbtree_remove: NULL s->l"
        | .node _ a b d => rotateRight (.node .red (.node .black a b d) sv sr)
      else Res.ok s).bind fun s' =>
      match s' with
      | .node _ sl' sv' (.node _ a b d) =>
        -- s->color = p->color; p->color = BLACK; s->r->color = BLACK; rotate_left(p)
        (rotateLeft (.node .black n v (.node c sl' sv' (.node .black a b d)))).bind fun t =>
        .ok (.done t)
      | _ => .ub "rbtree_remove: NULL s->r"

/-- rbtree.c:270-290, the mirror image of `fixLeft`. -/
def fixRight (s : Tree α) (c : Color) (v : α) (n : Tree α) : Res (Fix α) :=
  match s with
  | .nil => .ub "rbtree_remove: NULL sibling"
  | .node _ sl sv sr =>
    if !isRed sl && !isRed sr then
      .ok (.up (.node c (.node .red sl sv sr) v n))
    else
      (if !isRed sl then
        match sr with
        | .nil => Res.ub "rbtree_remove: NULL s->r"
        | .node _ a b d => rotateLeft (.node .red sl sv (.node .black a b d))
      else Res.ok s).bind fun s' =>
      match s' with
      | .node _ (.node _ a b d) sv' sr' =>
        (rotateRight (.node .black (.node c (.node .black a b d) sv' sr') v n)).bind fun t =>
        .ok (.done t)
      | _ => .ub "rbtree_remove: NULL s->l"

/-- The loop rbtree.c:226-294.  `n` (possibly NULL) is the focus, the path
starts at `p`.  A red sibling is first rotated up (rbtree.c:233-239,
263-269); `p` is red afterwards, so the loop ends after that round. -/
def removeFixup : Tree α → Path α → Res (Tree α)
  | n, [] => .ok (blacken n)
  | n, .L c v s :: rest =>
    match s with
    | .node .red sl sv sr =>
      (fixLeft n .red v sl).bind fun
        | .done t => .ok (blacken (zip (.node .black t sv sr) rest))
        | .up t   => .ok (zip (.node .black (blacken t) sv sr) rest)
    | s =>
      (fixLeft n c v s).bind fun
        | .done t => .ok (blacken (zip t rest))
        | .up t   => if c = .red then .ok (zip (blacken t) rest) else removeFixup t rest
  | n, .R c s v :: rest =>
    match s with
    | .node .red sl sv sr =>
      (fixRight sr .red v n).bind fun
        | .done t => .ok (blacken (zip (.node .black sl sv t) rest))
        | .up t   => .ok (zip (.node .black sl sv (blacken t)) rest)
    | s =>
      (fixRight s c v n).bind fun
        | .done t => .ok (blacken (zip t rest))
        | .up t   => if c = .red then .ok (zip (blacken t) rest) else removeFixup t rest

/-- Unlinking `x`, the leftmost node of the right subtree (rbtree.c:180-182,
200-206): returns the location below which `x->r` takes its place, i.e. the
replacement subtree and the path *inside* the right subtree, with the colour
and payload of `x`. -/
def takeMin (c : Color) (l : Tree α) (v : α) (r : Tree α) (p : Path α) :
    Color × α × Tree α × Path α :=
  match l with
  | .nil => (c, v, r, p)
  | .node c' l' v' r' => takeMin c' l' v' r' (.L c v r :: p)

/-- rbtree.c:166-295 `rbtree_remove` of the node at a location (a linked node,
so the `RBTREE_UNDEF` early return does not apply). -/
def remove (n : Loc α) : Res (Tree α) :=
  -- the colour that disappears, the focus left behind, and its path
  let (color, x, path) : Color × Tree α × Path α :=
    match n.l, n.r with
    | .nil, r => (n.c, r, n.path)
    | l, .nil => (n.c, l, n.path)
    | l, .node c' l' v' r' =>
      let (xc, xv, xr, inner) := takeMin c' l' v' r' []
      (xc, xr, inner ++ (.R n.c l xv :: n.path))
  if color = .red then .ok (zip x path)
  else if isRed x then .ok (zip (blacken x) path)
  else removeFixup x path

/-- Finding a node again from a raw pointer, i.e. by node identity: the first
node in order whose payload satisfies `is` (payloads carry a unique identity
where this is used).  Models that a C pointer stays valid while the tree is
rebalanced around it. -/
def locate (is : α → Bool) : Tree α → Path α → Option (Loc α)
  | .nil, _ => none
  | .node c l v r, p =>
    match locate is l (.L c v r :: p) with
    | some x => some x
    | none => if is v then some ⟨c, l, v, r, p⟩ else locate is r (.R c l v :: p)

/-- `for (n = rbtree_next(x); n; n = rbtree_next(n))` (the page loop of
engine/io/memtable_iterator.h:70-93): payloads visited after `x`.
The C loop has no bound; `fuel` bounds the number of rounds. -/
def walkNext (fuel : Nat) (x : Loc α) : List α :=
  match fuel with
  | 0 => []
  | fuel + 1 =>
    match next x with
    | none => []
    | some y => y.v :: walkNext fuel y

/-- The same loop with `rbtree_prev`. -/
def walkPrev (fuel : Nat) (x : Loc α) : List α :=
  match fuel with
  | 0 => []
  | fuel + 1 =>
    match prev x with
    | none => []
    | some y => y.v :: walkPrev fuel y

/-- Full forward iteration: `rbtree_min` then `rbtree_next`
(engine/io/mapping.h:59-66 and 106-113). -/
def forward (fuel : Nat) (t : Tree α) : List α :=
  match min t with
  | none => []
  | some x => x.v :: walkNext fuel x

/-- Full backward iteration from `rbtree_max` (engine/io/mapping.h:68-75 and
115-122). -/
def backward (fuel : Nat) (t : Tree α) : List α :=
  match max t with
  | none => []
  | some x => x.v :: walkPrev fuel x

/-- In-order contents (ghost: what iterating with `min`/`next` visits, proved
in `Proofs/Rbtree.lean`). -/
def inorder : Tree α → List α
  | .nil => []
  | .node _ l v r => inorder l ++ v :: inorder r

end
end Verif.Rb
