import Verif.Map.KeysLemmas
import Verif.Map.Prio
import Verif.Float.Arith
import Mathlib.Data.Prod.Lex

/-! C130: maps whose keys and values are objects of classes: comparisons that are no order, and exceptions. -/

namespace Nanostl.Map.Keys

open Tree Nanostl.Float

variable {K V Q : Type}

/-! ### The specification -/

/-- What a client sees of commands called one after the other, `none` where one threw, and the map left; nothing if one of them is undefined. -/
def run (C : Cls K V) : List (Cmd K V) → St K V → Option (St K V × List (Option (Res V)))
  | [], s => some (s, [])
  | c :: cs, s => match exec C c s with
    | .ok s r => (run C cs s).map fun x => (x.1, some r :: x.2)
    | .exc s => (run C cs s).map fun x => (x.1, none :: x.2)
    | .ub => none

def Cmd.key : Cmd K V → K
  | .insert k _ | .set k _ | .get k | .find k => k

def put [DecidableEq Q] (F : Q → Option V) (q : Q) (v : V) : Q → Option V := fun p => if p = q then some v else F p

/-- A command that returns, on a map from ranks of keys to values. -/
def Returns [DecidableEq Q] (r : K → Q) (dflt : V) (F : Q → Option V) : Cmd K V → Res V → (Q → Option V) → Prop
  | .insert k v, x, F' => match F (r k) with
    | some _ => x = .inserted false ∧ F' = F
    | none => x = .inserted true ∧ F' = put F (r k) v
  | .set k v, x, F' => x = .done ∧ F' = put F (r k) v
  | .get k, x, F' => match F (r k) with
    | some v => x = .value v ∧ F' = F
    | none => x = .value dflt ∧ F' = put F (r k) dflt
  | .find k, x, F' => F' = F ∧ x = match F (r k) with
    | some v => .value v
    | none => .absent

/-- A command that throws: nothing is changed, but `m[k] = v` may leave some value for `k`. -/
def Throws [DecidableEq Q] (r : K → Q) (F : Q → Option V) : Cmd K V → (Q → Option V) → Prop
  | .set k _, F' => F' = F ∨ ∃ z, F' = put F (r k) z
  | _, F' => F' = F

/-- Results that a map from ranks to values can give. -/
inductive Run [DecidableEq Q] (r : K → Q) (dflt : V) : (Q → Option V) → List (Cmd K V) → List (Option (Res V)) → Prop
  | nil (F : Q → Option V) : Run r dflt F [] []
  | ok {F F' : Q → Option V} {c : Cmd K V} {x : Res V} {cs : List (Cmd K V)} {xs : List (Option (Res V))} : Returns r dflt F c x F' → Run r dflt F' cs xs → Run r dflt F (c :: cs) (some x :: xs)
  | exc {F F' : Q → Option V} {c : Cmd K V} {cs : List (Cmd K V)} {xs : List (Option (Res V))} : Throws r F c F' → Run r dflt F' cs xs → Run r dflt F (c :: cs) (none :: xs)

/-- The maps commands lead to. -/
inductive Reach (C : Cls K V) : St K V → Prop
  | init (fails : Nat → Bool) (rand : Nat → Nat) : Reach C (init fails rand)
  | ok {s s' : St K V} (c : Cmd K V) {r : Res V} : Reach C s → exec C c s = .ok s' r → Reach C s'
  | exc {s s' : St K V} (c : Cmd K V) : Reach C s → exec C c s = .exc s' → Reach C s'

/-- `==` and `>` of these keys are those of some order. -/
def Ordered [LinearOrder Q] (C : Cls K V) (r : K → Q) (S : K → Prop) : Prop := ∀ a b, S a → S b → C.eq a b = decide (r a = r b) ∧ C.gt a b = decide (r a > r b)

theorem reach_inv {C : Cls K V} {s : St K V} (h : Reach C s) : ∃ t, Inv s t := by
  induction h with
  | init f r => exact ⟨leaf, inv_init f r⟩
  | ok c _ e ih =>
    obtain ⟨t, I⟩ := ih
    rcases exec_inv (C := C) I c with ⟨u, x, t', e', J⟩ | ⟨u, t', e', J⟩ <;> rw [e'] at e <;> cases e
    exact ⟨t', J⟩
  | exc c _ e ih =>
    obtain ⟨t, I⟩ := ih
    rcases exec_inv (C := C) I c with ⟨u, x, t', e', J⟩ | ⟨u, t', e', J⟩ <;> rw [e'] at e <;> cases e
    exact ⟨t', J⟩

/-! ### The property -/

/-- **C130.** Whatever the comparisons of the keys say and whatever throws: no command is undefined, nor is `upper_bound`, and the destructor ends and leaves no node. -/
theorem c130_safe {C : Cls K V} {s : St K V} (h : Reach C s) :
    (∀ c, exec C c s ≠ .ub) ∧ (∀ k, upper C k s ≠ .ub) ∧ ∃ s', dtor s = .ok s' () ∧ ∀ q, s'.m.mem q = none := by
  obtain ⟨t, I⟩ := reach_inv h
  refine ⟨fun c e => ?_, fun k e => ?_, dtor_spec I⟩
  · rcases exec_inv (C := C) I c with ⟨u, x, t', e', J⟩ | ⟨u, t', e', J⟩ <;> rw [e] at e' <;> cases e'
  · rcases upper_spec (C := C) I k with ⟨u, e', -⟩ | ⟨u, e', -⟩ <;> rw [e] at e' <;> cases e'

/-- **C130, as far as it holds.** A command that throws has changed neither a node nor the root, whatever the comparisons say. Missing: `m[k] = v` (`c130_set_false`). -/
theorem c130_strong_partial {C : Cls K V} {s s' : St K V} (h : Reach C s) {c : Cmd K V} (hc : ∀ k v, c ≠ .set k v) (e : exec C c s = .exc s') :
    s'.root = s.root ∧ s'.m.mem = s.m.mem := by
  obtain ⟨t, I⟩ := reach_inv h
  have key : Still s s' → s'.root = s.root ∧ s'.m.mem = s.m.mem := by rintro ⟨c, rfl⟩; exact ⟨rfl, rfl⟩
  rcases exec_spec (C := C) I c with ⟨u, e', S⟩ | h
  · rw [e'] at e; cases e; exact key S
  · cases c with
    | insert k v => rcases h with ⟨x, u, -, e', -⟩ | ⟨-, u, x, -, -, e', -⟩ <;> rw [e'] at e <;> cases e
    | get k => rcases h with ⟨x, u, -, e', -⟩ | ⟨-, u, x, -, -, e', -⟩ <;> rw [e'] at e <;> cases e
    | find k => rcases h with ⟨x, u, -, e', -⟩ | ⟨-, u, e', -⟩ <;> rw [e'] at e <;> cases e
    | set k v => exact (hc k v rfl).elim

/-- The tree is that of the map from ranks to values. -/
structure Same [LinearOrder Q] (r : K → Q) (S : K → Prop) (t : Tree K V) (F : Q → Option V) : Prop where
  bst : (rankT r t).Bst
  keys : ∀ e ∈ t.ents, S e.key
  fn : fn r t = F

theorem same_look [LinearOrder Q] {C : Cls K V} {r : K → Q} {S : K → Prop} {t : Tree K V} {F : Q → Option V} (o : Ordered C r S) (h : Same r S t F) {k : K} (hk : S k) :
    F (r k) = (lookK C t k).map (·.val) := by
  rw [← h.fn, Keys.fn, rankT_look (C := C) fun e he => o k e.key hk (h.keys e he), Option.map_map]
  rfl

theorem same_ins [LinearOrder Q] {C : Cls K V} {r : K → Q} {S : K → Prop} {t : Tree K V} {F : Q → Option V} (o : Ordered C r S) (h : Same r S t F) {x : Ent K V} (hk : S x.key)
    (hl : lookK C t x.key = none) : Same r S (insK C x t) (put F (r x.key) x.val) := by
  have e := rankT_ins (C := C) (r := r) (x := x) fun e he => o x.key e.key hk (h.keys e he)
  have hl' : look (rankT r t) (rankE r x).key = none := by
    show look (rankT r t) (r x.key) = none
    rw [rankT_look (C := C) fun e he => o x.key e.key hk (h.keys e he), hl]; rfl
  refine ⟨by rw [e]; exact ins_bst h.bst hl', fun y hy => ?_, ?_⟩
  · rcases List.mem_cons.mp ((insK_perm hl).mem_iff.mp hy) with rfl | hy
    · exact hk
    · exact h.keys y hy
  · funext q
    rw [Keys.fn, e, look_ins h.bst hl', ← h.fn]
    show Option.map _ (if q = r x.key then _ else _) = if q = r x.key then _ else _
    split <;> rfl

theorem same_set [LinearOrder Q] {r : K → Q} {S : K → Prop} {t : Tree K V} {F : Q → Option V} (h : Same r S t F) (hn : t.addrs.Nodup) {e : Ent K V} (he : e ∈ t.ents) (v : V) :
    Same r S (setAt e.addr v t) (put F (r e.key) v) := by
  obtain ⟨h1, h2⟩ := fn_set h.bst hn he v
  refine ⟨h1, fun y hy => ?_, by rw [h2, h.fn]; rfl⟩
  rw [setAt_ents] at hy
  obtain ⟨z, hz, rfl⟩ := List.mem_map.mp hy
  have : (if z.addr = e.addr then { z with val := v } else z).key = z.key := by split <;> rfl
  rw [this]; exact h.keys z hz

theorem run_spec [LinearOrder Q] {C : Cls K V} {r : K → Q} {S : K → Prop} (o : Ordered C r S) : ∀ (cs : List (Cmd K V)) {s : St K V} {t : Tree K V} {F : Q → Option V},
    (∀ c ∈ cs, S c.key) → Inv s t → Same r S t F → ∃ s' xs, run C cs s = some (s', xs) ∧ Run r C.dflt F cs xs ∧ ∃ t' F', Inv s' t' ∧ Same r S t' F'
  | [], s, t, F, _, I, h => ⟨s, [], rfl, .nil F, t, F, I, h⟩
  | c :: cs, s, t, F, hS, I, h => by
    have hc := hS c (by simp)
    have ih := fun {s t F} => run_spec o cs (s := s) (t := t) (F := F) fun d hd => hS d (by simp [hd])
    -- one command and the rest
    have okay : ∀ {s' t' F' x}, exec C c s = .ok s' x → Inv s' t' → Same r S t' F' → Returns r C.dflt F c x F' →
        ∃ s' xs, run C (c :: cs) s = some (s', xs) ∧ Run r C.dflt F (c :: cs) xs ∧ ∃ t' F', Inv s' t' ∧ Same r S t' F' := by
      intro s' t' F' x e J h' R
      obtain ⟨u, xs, e', R', T⟩ := ih J h'
      exact ⟨u, some x :: xs, by simp only [run, e, e']; rfl, .ok R R', T⟩
    have excy : ∀ {s' t' F'}, exec C c s = .exc s' → Inv s' t' → Same r S t' F' → Throws r F c F' →
        ∃ s' xs, run C (c :: cs) s = some (s', xs) ∧ Run r C.dflt F (c :: cs) xs ∧ ∃ t' F', Inv s' t' ∧ Same r S t' F' := by
      intro s' t' F' e J h' R
      obtain ⟨u, xs, e', R', T⟩ := ih J h'
      exact ⟨u, none :: xs, by simp only [run, e, e']; rfl, .exc R R', T⟩
    have lk := same_look o h hc
    rcases exec_spec (C := C) I c with ⟨u, e', S'⟩ | hx
    · exact excy e' (I.still S') h (by cases c <;> first | exact rfl | exact .inl rfl)
    · cases c with
      | insert k v =>
        simp only [Cmd.key] at hc lk
        rcases hx with ⟨x, u, hl, e', S'⟩ | ⟨hl, u, x, rfl, rfl, e', J⟩
        · exact okay e' (I.still S') h (by simp [Returns, lk, hl])
        · exact okay e' J (same_ins o h hc hl) (by simp [Returns, lk, hl])
      | get k =>
        simp only [Cmd.key] at hc lk
        rcases hx with ⟨x, u, hl, e', S'⟩ | ⟨hl, u, x, rfl, hv, e', J⟩
        · exact okay e' (I.still S') h (by simp [Returns, lk, hl])
        · exact okay e' J (same_ins o h hc hl) (by simp [Returns, lk, hl, hv])
      | find k =>
        simp only [Cmd.key] at hc lk
        rcases hx with ⟨x, u, hl, e', S'⟩ | ⟨hl, u, e', S'⟩
        · exact okay e' (I.still S') h (by simp [Returns, lk, hl])
        · exact okay e' (I.still S') h (by simp [Returns, lk, hl])
      | set k v =>
        simp only [Cmd.key] at hc lk
        obtain ⟨x, u, hu, hx⟩ := hx
        -- the entry, in the old tree or the new one
        have key : ∀ {z s'}, Inv s' (setAt x.addr z u) → Same r S (setAt x.addr z u) (put F (r k) z) := by
          intro z s' J
          have nd : u.addrs.Nodup := by rw [← setAt_addrs x.addr z u]; exact J.nodup
          rcases hu with ⟨hl, rfl⟩ | ⟨hl, rfl, rfl⟩
          · obtain ⟨m, q⟩ := lookK_mem hl
            have hr : r k = r x.key := by
              have := (o k x.key hc (h.keys x m)).1
              rw [q] at this
              exact of_decide_eq_true this.symm
            rw [hr]
            exact same_set h nd m z
          · have h1 := same_ins o h hc hl
            have h2 := same_set h1 nd (insK_mem hl) z
            have : put (put F (r x.key) x.val) (r x.key) z = put F (r x.key) z := by
              funext q; simp only [put]; split <;> rfl
            rw [← this]; exact h2
        rcases hx with ⟨w, e', J⟩ | ⟨w, z, e', J⟩
        · exact okay e' J (key J) ⟨rfl, rfl⟩
        · exact excy e' J (key J) (.inr ⟨z, rfl⟩)

theorem same_init [LinearOrder Q] {r : K → Q} {S : K → Prop} : Same r S (leaf : Tree K V) (fun _ => none) := ⟨by simp [rankT, Bst, ents], fun _ h => (by cases h), rfl⟩

/-- **C130, as far as it holds.** If the comparisons of the keys used are those of some order, all results are those of a map from keys to values, whatever throws. Missing: keys that
are not ordered, such as NaN (`c130_lost_false`). -/
theorem c130_map_partial [LinearOrder Q] {C : Cls K V} {r : K → Q} {S : K → Prop} (o : Ordered C r S) (cs : List (Cmd K V)) (hS : ∀ c ∈ cs, S c.key) (fails : Nat → Bool) (rand : Nat → Nat) :
    ∃ s xs, run C cs (init fails rand) = some (s, xs) ∧ Run r C.dflt (fun _ => none) cs xs := by
  obtain ⟨s, xs, e, R, -⟩ := run_spec o cs hS (inv_init fails rand) same_init
  exact ⟨s, xs, e, R⟩

/-- **C130, as far as it holds.** In such a map `upper_bound(k)`, if it does not throw, designates the entry whose key is the least above `k`, and is `end()` if there is none. -/
theorem c130_upper_partial [LinearOrder Q] {C : Cls K V} {r : K → Q} {S : K → Prop} (o : Ordered C r S) {cs : List (Cmd K V)} (hS : ∀ c ∈ cs, S c.key) {fails : Nat → Bool} {rand : Nat → Nat}
    {s s' : St K V} {xs : List (Option (Res V))} (e : run C cs (init fails rand) = some (s, xs)) {k : K} (hk : ∀ a, S a → C.lt k a = decide (r k < r a)) {p : Option Nat} (eu : upper C k s = .ok s' p) :
    (p = none → ∀ a n, s.m.mem a = some n → ¬ r k < r n.key) ∧
    ∀ a, p = some a → ∃ n, s.m.mem a = some n ∧ r k < r n.key ∧ ∀ b m, s.m.mem b = some m → r k < r m.key → r n.key ≤ r m.key := by
  obtain ⟨u, ys, e', -, t, F, I, h⟩ := run_spec o cs hS (inv_init fails rand) same_init
  rw [e'] at e; cases e
  have all : ∀ a n, s.m.mem a = some n → ∃ x ∈ t.ents, x.addr = a ∧ n.key = x.key := by
    intro a n hn
    obtain ⟨x, hx, rfl⟩ := List.mem_map.mp (I.owned a (by rw [hn]; exact fun h => (by cases h)))
    obtain ⟨m, m1, -, m2⟩ := I.node hx
    rw [hn] at m1; cases m1
    exact ⟨x, hx, rfl, m2⟩
  have sp := upK_spec (C := C) (k := k) h.bst fun x hx => hk x.key (h.keys x hx)
  rcases upper_spec (C := C) I k with ⟨u, e', -⟩ | ⟨u, e', -⟩ <;> rw [e'] at eu <;> cases eu
  cases hu : upK C t k with
  | none =>
    rw [hu] at sp
    refine ⟨fun _ a n hn => ?_, fun _ h => (by cases h)⟩
    obtain ⟨x, hx, -, hq⟩ := all a n hn
    rw [hq]; exact sp x hx
  | some y =>
    rw [hu] at sp
    obtain ⟨s1, s2, s3⟩ := sp
    obtain ⟨n, n1, -, n2⟩ := I.node s1
    refine ⟨fun h => (by cases h), fun a ha => ?_⟩
    cases ha
    refine ⟨n, n1, by rw [n2]; exact s2, fun b m hm hlt => ?_⟩
    obtain ⟨x, hx, -, hq⟩ := all b m hm
    rw [n2, hq]; exact s3 x hx (by rw [← hq]; exact hlt)

/-- Keys of a floating-point type, by their bits. -/
def floatCls (φ : Fmt) (dflt : V) (wreck : V → V → V) : Cls Nat V := ⟨φ.eq, fun a b => φ.lt b a, φ.lt, dflt, wreck⟩

/-- The place of a value among all. -/
def place : Val → Int ×ₗ Int
  | .nan => toLex (0, 0)
  | .inf true => toLex (-1, 0)
  | .inf false => toLex (1, 0)
  | .fin v => toLex (0, v)

theorem place_spec {x y : Val} (hx : x ≠ .nan) (hy : y ≠ .nan) : (x.eq y = true ↔ place x = place y) ∧ (y.lt x = true ↔ place x > place y) := by
  cases x with
  | nan => exact (hx rfl).elim
  | inf p => cases y with
    | nan => exact (hy rfl).elim
    | inf q => cases p <;> cases q <;> simp [place, Val.eq, Val.lt, Prod.Lex.toLex_lt_toLex]
    | fin w => cases p <;> simp [place, Val.eq, Val.lt, Prod.Lex.toLex_lt_toLex]
  | fin v => cases y with
    | nan => exact (hy rfl).elim
    | inf q => cases q <;> simp [place, Val.eq, Val.lt, Prod.Lex.toLex_lt_toLex]
    | fin w => simp [place, Val.eq, Val.lt, Prod.Lex.toLex_lt_toLex]

/-- **C130.** Keys of floating-point types are ordered if none of them is NaN; the two zeros are one key. -/
theorem c130_float (φ : Fmt) (dflt : V) (wreck : V → V → V) : Ordered (floatCls φ dflt wreck) (fun x => place (φ.val x)) (fun x => φ.val x ≠ .nan) := by
  intro a b ha hb
  obtain ⟨h1, h2⟩ := place_spec ha hb
  exact ⟨by rw [Bool.eq_iff_iff, decide_eq_true_iff]; exact h1, by rw [Bool.eq_iff_iff, decide_eq_true_iff]; exact h2⟩

/-- **C130, not so.** A key that equals nothing, such as NaN, is never found and can be inserted any number of times. -/
theorem c130_nan_false {C : Cls K V} {s s' : St K V} (h : Reach C s) {k : K} (hk : ∀ b, C.eq k b = false) {v : V} {x : Res V} :
    (exec C (.find k) s = .ok s' x → x = .absent) ∧ (exec C (.insert k v) s = .ok s' x → x = .inserted true) ∧ (exec C (.get k) s = .ok s' x → x = .value C.dflt) := by
  obtain ⟨t, I⟩ := reach_inv h
  have none : lookK C t k = none := by
    cases hl : lookK C t k with
    | none => rfl
    | some e => have := (lookK_mem hl).2; rw [hk] at this; cases this
  refine ⟨fun e => ?_, fun e => ?_, fun e => ?_⟩
  · rcases exec_spec (C := C) I (.find k) with ⟨u, e', -⟩ | ⟨y, u, hl, -⟩ | ⟨-, u, e', -⟩
    · rw [e'] at e; cases e
    · rw [none] at hl; cases hl
    · rw [e'] at e; cases e; rfl
  · rcases exec_spec (C := C) I (.insert k v) with ⟨u, e', -⟩ | ⟨y, u, hl, -⟩ | ⟨-, u, y, -, -, e', -⟩
    · rw [e'] at e; cases e
    · rw [none] at hl; cases hl
    · rw [e'] at e; cases e; rfl
  · rcases exec_spec (C := C) I (.get k) with ⟨u, e', -⟩ | ⟨y, u, hl, -⟩ | ⟨-, u, y, -, -, e', -⟩
    · rw [e'] at e; cases e
    · rw [none] at hl; cases hl
    · rw [e'] at e; cases e; rfl

/-- NaN is such a key. -/
theorem nan_eq {φ : Fmt} {x : Nat} (h : φ.val x = .nan) (dflt : V) (wreck : V → V → V) (b : Nat) : (floatCls φ dflt wreck).eq x b = false := by
  simp [floatCls, Fmt.eq, h, Val.eq]

/-- **C130, not so.** Once NaN was used as a key, other keys are not found any more: 1.0, 0.5 and NaN are inserted, with the priorities of a fresh program, and 0.5 is gone. -/
theorem c130_lost_false : ∃ s, run (floatCls f64 0 fun a _ => a) [.insert 0x3FF0000000000000 1, .insert 0x3FE0000000000000 2, .find 0x3FE0000000000000, .insert 0x7FF8000000000000 3, .find 0x3FE0000000000000]
    (init (fun _ => false) prioStream) = some (s, [some (.inserted true), some (.inserted true), some (.value 2), some (.inserted true), some .absent]) := by
  have h : ((run (floatCls f64 0 fun a _ => a) [.insert 0x3FF0000000000000 1, .insert 0x3FE0000000000000 2, .find 0x3FE0000000000000, .insert 0x7FF8000000000000 3, .find 0x3FE0000000000000]
    (init (fun _ => false) prioStream)).map (·.2)) = some [some (.inserted true), some (.inserted true), some (.value 2), some (.inserted true), some .absent] := by decide +kernel
  obtain ⟨x, hx, e⟩ := Option.map_eq_some_iff.mp h
  exact ⟨x.1, by rw [hx, ← e]⟩

/-- **C130, not so.** `m[k] = v` whose assignment throws leaves `k` in the map. -/
theorem c130_set_false : ∃ s, run (⟨fun a b => a == b, fun a b => decide (a > b), fun a b => decide (a < b), 0, fun a _ => a⟩ : Cls Nat Nat) [.find 7, .set 7 1, .find 7]
    (init (fun k => k == 3) prioStream) = some (s, [some .absent, none, some (.value 0)]) := by
  have h : ((run (⟨fun a b => a == b, fun a b => decide (a > b), fun a b => decide (a < b), 0, fun a _ => a⟩ : Cls Nat Nat) [.find 7, .set 7 1, .find 7]
    (init (fun k => k == 3) prioStream)).map (·.2)) = some [some .absent, none, some (.value 0)] := by decide +kernel
  obtain ⟨x, hx, e⟩ := Option.map_eq_some_iff.mp h
  exact ⟨x.1, by rw [hx, ← e]⟩

/-! ### The hypotheses can be met -/

/-- Zeros of both signs, one infinity: ordered keys. -/
example : ∀ c ∈ [Cmd.insert 0 5, .set (2 ^ 63) 6, .get 0x7FF0000000000000], f64.val c.key ≠ .nan := by decide +kernel

/-- The two zeros are one key, and a comparison throws on the way. -/
example : ((run (floatCls f64 0 fun a _ => a) [.insert 0 5, .set (2 ^ 63) 6, .find 0, .find 0x7FF0000000000000, .find 0x7FF0000000000000]
    (init (fun k => k == 7) prioStream)).map (·.2)) = some [some (.inserted true), some .done, some (.value 6), none, some .absent] := by decide +kernel

/-- The key above 0.75 is 1.0. -/
example : (match run (floatCls f64 0 fun a _ => a) [.insert 0x3FF0000000000000 1, .insert 0x3FE0000000000000 2] (init (fun _ => false) prioStream) with
    | some (s, _) => match upper (floatCls f64 0 fun a _ => a) 0x3FE8000000000000 s with
      | .ok _ (some a) => (s.m.mem a).map (·.key) == some 0x3FF0000000000000
      | _ => false
    | none => false) = true := by decide +kernel

end Nanostl.Map.Keys
