import Verif.Opt.Model

/-!
Model of the comparisons and the hash of `nonstd::optional` (`include/nonstd/optional.hpp`). They take their arguments by const reference, so
they are functions of the members of the two optionals, of contained types `α` and `β`. Comparisons of contained values may throw (`none`).
-/

namespace Nanostl.Opt

variable {α β : Type}

/-- What a comparison does: a result, an exception of a contained value's comparison, or a use of an object that does not exist. -/
inductive Cmp where
  | val (b : Bool)
  | exc
  | bad
  deriving DecidableEq

/-- `!` in front of a comparison. -/
def Cmp.not : Cmp → Cmp
  | .val b => .val (!b)
  | c => c

/-- `*x` with its assertion (optional.hpp:1383-1387, 830-833). -/
def star (o : Ov α) : Option α := if o.has then o.st.map Prod.snd else none

/-- `f(*x, *y)`. -/
def on2 (f : α → β → Option Bool) (x : Ov α) (y : Ov β) : Cmp :=
  match star x, star y with
  | some a, some b => match f a b with
    | some r => .val r
    | none => .exc
  | _, _ => .bad

/-- `f(*x)`. -/
def on1 (f : α → Option Bool) (x : Ov α) : Cmp :=
  match star x with
  | some a => match f a with
    | some r => .val r
    | none => .exc
  | none => .bad

/-! Two optionals (optional.hpp:1539-1573) -/

def eqOO (eq : α → β → Option Bool) (x : Ov α) (y : Ov β) : Cmp :=
  if x.has != y.has then .val false else if !x.has then .val true else on2 eq x y
def neOO (eq : α → β → Option Bool) (x : Ov α) (y : Ov β) : Cmp := (eqOO eq x y).not
def ltOO (lt : α → β → Option Bool) (x : Ov α) (y : Ov β) : Cmp :=
  if !y.has then .val false else if !x.has then .val true else on2 lt x y
/-- `lt` compares a value of the right optional with one of the left. -/
def gtOO (lt : β → α → Option Bool) (x : Ov α) (y : Ov β) : Cmp := ltOO lt y x
def leOO (lt : β → α → Option Bool) (x : Ov α) (y : Ov β) : Cmp := (ltOO lt y x).not
def geOO (lt : α → β → Option Bool) (x : Ov α) (y : Ov β) : Cmp := (ltOO lt x y).not

/-! With `nullopt`, on the right or on the left (optional.hpp:1577-1647); `noexcept` -/

def eqON (x : Ov α) : Bool := !x.has
def eqNO (x : Ov α) : Bool := !x.has
def neON (x : Ov α) : Bool := x.has
def neNO (x : Ov α) : Bool := x.has
def ltON (_ : Ov α) : Bool := false
def ltNO (x : Ov α) : Bool := x.has
def leON (x : Ov α) : Bool := !x.has
def leNO (_ : Ov α) : Bool := true
def gtON (x : Ov α) : Bool := x.has
def gtNO (_ : Ov α) : Bool := false
def geON (_ : Ov α) : Bool := true
def geNO (x : Ov α) : Bool := !x.has

/-! With a value, on the right or on the left (optional.hpp:1651-1721). Each uses the values' operator of the same name. -/

def eqOV (op : α → β → Option Bool) (x : Ov α) (v : β) : Cmp := if x.has then on1 (fun a => op a v) x else .val false
def eqVO (op : β → α → Option Bool) (v : β) (x : Ov α) : Cmp := if x.has then on1 (fun a => op v a) x else .val false
def neOV (op : α → β → Option Bool) (x : Ov α) (v : β) : Cmp := if x.has then on1 (fun a => op a v) x else .val true
def neVO (op : β → α → Option Bool) (v : β) (x : Ov α) : Cmp := if x.has then on1 (fun a => op v a) x else .val true
def ltOV (op : α → β → Option Bool) (x : Ov α) (v : β) : Cmp := if x.has then on1 (fun a => op a v) x else .val true
def ltVO (op : β → α → Option Bool) (v : β) (x : Ov α) : Cmp := if x.has then on1 (fun a => op v a) x else .val false
def leOV (op : α → β → Option Bool) (x : Ov α) (v : β) : Cmp := if x.has then on1 (fun a => op a v) x else .val true
def leVO (op : β → α → Option Bool) (v : β) (x : Ov α) : Cmp := if x.has then on1 (fun a => op v a) x else .val false
def gtOV (op : α → β → Option Bool) (x : Ov α) (v : β) : Cmp := if x.has then on1 (fun a => op a v) x else .val false
def gtVO (op : β → α → Option Bool) (v : β) (x : Ov α) : Cmp := if x.has then on1 (fun a => op v a) x else .val true
def geOV (op : α → β → Option Bool) (x : Ov α) (v : β) : Cmp := if x.has then on1 (fun a => op a v) x else .val false
def geVO (op : β → α → Option Bool) (v : β) (x : Ov α) : Cmp := if x.has then on1 (fun a => op v a) x else .val true

/-- `hash<optional<T>>` (optional.hpp:1788-1797); `h` is `hash<T>`. `none`: use of an object that does not exist. -/
def hash (h : α → Nat) (x : Ov α) : Option Nat := if x.has then (star x).map h else some 0

end Nanostl.Opt
