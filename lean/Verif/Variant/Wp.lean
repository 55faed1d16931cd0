import Verif.Variant.Lemmas

/-! Weakest preconditions over the abstract contents: index, alternative and value of every variable, without identities. -/

namespace Nanostl.Variant

variable {α : Type}

open Spec

abbrev AV (α : Type) := Var → Option (Int × Option (Val α))
def av (w : W α) : AV α := fun x => (w.vars x).map fun s => (s.idx, s.obj.map (·.2))
def updv (a : AV α) (x : Var) (p : Option (Int × Option (Val α))) : AV α := fun y => if y = x then p else a y

@[simp] theorem updv_same (a : AV α) (x : Var) (p) : updv a x p x = p := by simp [updv]
theorem updv_ne (a : AV α) {x y : Var} (p) (h : y ≠ x) : updv a x p y = a y := by simp [updv, h]
@[simp] theorem updv_updv (a : AV α) (x : Var) (p q) : updv (updv a x p) x q = updv a x q := by funext y; simp only [updv]; split <;> rfl
theorem updv_self (a : AV α) (x : Var) (p) (h : a x = p) : updv a x p = a := by funext y; simp only [updv]; split <;> simp_all
theorem updv_comm (a : AV α) {x y : Var} (h : x ≠ y) (p q) : updv (updv a x p) y q = updv (updv a y q) x p := by
  funext z; simp only [updv]; split <;> split <;> simp_all

theorem av_set (w : W α) (x : Var) (s : Option (Slot α)) : av (w.set x s) = updv (av w) x (s.map fun s => (s.idx, s.obj.map (·.2))) := by
  funext y; simp only [av, W.set, updv]; split <;> rfl

/-- From contents `a`, `m` ends with `Q`, throws with `E` or terminates if `T`; it is not bad. -/
def awp {β : Type} (m : M α β) (Q : β → AV α → Prop) (E : AV α → Prop) (T : Prop) (a : AV α) : Prop := ∀ w, av w = a → match m w with
  | .ok w' b => Q b (av w')
  | .exc w' => E (av w')
  | .term => T
  | .bad => False

/-- Something fails some time. -/
def Thr (c : Cls α) : Prop := ∃ n, c.throws n = true

variable {β γ : Type} {Q : β → AV α → Prop} {E : AV α → Prop} {T : Prop} {a : AV α}

theorem awp_mono {m : M α β} {Q' : β → AV α → Prop} {E' : AV α → Prop} {T' : Prop} (h : awp m Q E T a) (hQ : ∀ b a, Q b a → Q' b a)
    (hE : ∀ a, E a → E' a) (hT : T → T') : awp m Q' E' T' a := by
  intro w hw
  have := h w hw
  cases e : m w with
  | ok w' b => simp only [e] at this ⊢; exact hQ _ _ this
  | exc w' => simp only [e] at this ⊢; exact hE _ this
  | term => simp only [e] at this ⊢; exact hT this
  | bad => simp only [e] at this

theorem ite_pos {p : Prop} [Decidable p] {m n : M α β} (hp : p) (h : awp m Q E T a) : awp (if p then m else n) Q E T a := by rw [if_pos hp]; exact h
theorem ite_neg {p : Prop} [Decidable p] {m n : M α β} (hp : ¬p) (h : awp n Q E T a) : awp (if p then m else n) Q E T a := by rw [if_neg hp]; exact h

theorem awp_pure (b : β) (h : Q b a) : awp (pure b) Q E T a := by
  intro w hw; subst hw; exact h

theorem awp_bind {m : M α γ} {f : γ → M α β} (h : awp m (fun b => awp (f b) Q E T) E T a) : awp (m >>= f) Q E T a := by
  intro w hw
  have h1 := h w hw
  simp only [bind_eq, M.bind]
  cases e : m w with
  | ok w' b => simp only [e] at h1 ⊢; exact h1 w' rfl
  | exc w' => simp only [e] at h1 ⊢; exact h1
  | term => simp only [e] at h1 ⊢; exact h1
  | bad => simp only [e] at h1

theorem awp_noexcept {m : M α β} (b : Bool) (h : awp m Q (fun a' => if b then T else E a') T a) : awp (M.noexcept b m) Q E T a := by
  intro w hw
  have h1 := h w hw
  simp only [M.noexcept]
  cases e : m w with
  | ok w' b => simp only [e] at h1 ⊢; exact h1
  | exc w' => simp only [e] at h1 ⊢; cases b <;> simpa using h1
  | term => simp only [e] at h1 ⊢; exact h1
  | bad => simp only [e] at h1

theorem awp_finally {m d : M α Unit} {Q : Unit → AV α → Prop} (h : awp m (fun _ => awp d Q E T) (awp d (fun _ => E) E T) T a) :
    awp (M.finally_ m d) Q E T a := by
  intro w hw
  have h1 := h w hw
  simp only [M.finally_]
  cases e : m w with
  | ok w' b => simp only [e] at h1 ⊢; exact h1 w' rfl
  | exc w' =>
    simp only [e] at h1 ⊢
    have h2 := h1 w' rfl
    cases e2 : d w' <;> simp only [e2] at h2 ⊢ <;> assumption
  | term => simp only [e] at h1 ⊢; exact h1
  | bad => simp only [e] at h1

theorem awp_onExc {m d : M α Unit} {Q : Unit → AV α → Prop} (h : awp m Q (awp d (fun _ => E) E T) T a) : awp (M.onExc m d) Q E T a := by
  intro w hw
  have h1 := h w hw
  simp only [M.onExc]
  cases e : m w with
  | ok w' b => simp only [e] at h1 ⊢; exact h1
  | exc w' =>
    simp only [e] at h1 ⊢
    have h2 := h1 w' rfl
    cases e2 : d w' <;> simp only [e2] at h2 ⊢ <;> assumption
  | term => simp only [e] at h1 ⊢; exact h1
  | bad => simp only [e] at h1

/-! ### Primitives -/

theorem av_some {w : W α} {x : Var} {p : Int × Option (Val α)} (h : av w x = some p) : ∃ s : Slot α, w.vars x = some s ∧ s.idx = p.1 ∧ s.obj.map (·.2) = p.2 := by
  simp only [av, Option.map_eq_some_iff] at h
  obtain ⟨s, h1, rfl⟩ := h
  exact ⟨s, h1, rfl, rfl⟩

theorem av_obj {w : W α} {x : Var} {i : Int} {t : Nat} {v : α} (h : av w x = some (i, some (t, v))) : ∃ id, w.vars x = some ⟨i, some (id, t, v)⟩ := by
  obtain ⟨⟨j, o⟩, h1, h2, h3⟩ := av_some h
  simp only [Option.map_eq_some_iff] at h2 h3
  obtain ⟨⟨id, u⟩, rfl, h4⟩ := h3
  simp only at h4; subst h4; subst h2
  exact ⟨id, h1⟩

theorem av_empty {w : W α} {x : Var} {i : Int} (h : av w x = some (i, none)) : w.vars x = some ⟨i, none⟩ := by
  obtain ⟨⟨j, o⟩, h1, h2, h3⟩ := av_some h
  simp only [Option.map_eq_none_iff] at h2 h3
  subst h2; subst h3; exact h1

theorem awp_slot {Q : Slot α → AV α → Prop} {x : Var} {p} (hx : a x = some p) (h : ∀ s, s.idx = p.1 → Q s a) : awp (slot x) Q E T a := by
  intro w hw; subst hw
  obtain ⟨s, h1, h2, -⟩ := av_some hx
  simp only [slot, h1]; exact h s h2

theorem awp_setIdx {Q : Unit → AV α → Prop} {x : Var} {i : Int} {p} (hx : a x = some p) (h : Q () (updv a x (some (i, p.2)))) : awp (setIdx x i) Q E T a := by
  intro w hw; subst hw
  obtain ⟨s, h1, h2, h3⟩ := av_some hx
  simp only [setIdx, h1, av_set, Option.map_some, h3]; exact h

theorem awp_declare {Q : Unit → AV α → Prop} {x : Var} {i : Int} (hx : a x = none) (h : Q () (updv a x (some (i, none)))) : awp (declare x i) Q E T a := by
  intro w hw; subst hw
  simp only [av, Option.map_eq_none_iff] at hx
  simp only [declare, hx, av_set]; exact h

theorem awp_undeclare {Q : Unit → AV α → Prop} {x : Var} {i : Int} (hx : a x = some (i, none)) (h : Q () (updv a x none)) : awp (undeclare x) Q E T a := by
  intro w hw; subst hw
  simp only [undeclare, av_empty hx, av_set]; exact h

theorem awp_call {Q : Unit → AV α → Prop} (c : Cls α) (b : Bool) (h : Q () a) (he : b = false → Thr c → E a) : awp (call c b) Q E T a := by
  intro w hw; subst hw
  simp only [call]
  cases b with
  | true => simpa using h
  | false =>
    by_cases ht : c.throws w.calls = true
    · simp only [ht, if_true, Bool.false_eq_true, if_false]; exact he rfl ⟨_, ht⟩
    · simp only [ht, Bool.false_eq_true, if_false]; exact h

theorem awp_place {Q : Unit → AV α → Prop} {x : Var} {i : Int} {t : Nat} {v : α} (hx : a x = some (i, none)) (h : Q () (updv a x (some (i, some (t, v))))) :
    awp (place x t v) Q E T a := by
  intro w hw; subst hw
  simp only [place, av_empty hx, av_set]; exact h

theorem awp_destroyObj {Q : Unit → AV α → Prop} {x : Var} {i : Int} {t : Nat} {v : α} (hx : a x = some (i, some (t, v)))
    (h : Q () (updv a x (some (i, none)))) : awp (destroyObj x t) Q E T a := by
  intro w hw; subst hw
  obtain ⟨id, h1⟩ := av_obj hx
  simp only [destroyObj, h1, if_true, av_set]; exact h

theorem awp_readObj {Q : α → AV α → Prop} {x : Var} {i : Int} {t : Nat} {v : α} (hx : a x = some (i, some (t, v))) (h : Q v a) : awp (readObj x t) Q E T a := by
  intro w hw; subst hw
  obtain ⟨id, h1⟩ := av_obj hx
  simp only [readObj, h1, if_true]; exact h

theorem awp_writeObj {Q : Unit → AV α → Prop} {x : Var} {i : Int} {t : Nat} {v u : α} (hx : a x = some (i, some (t, v)))
    (h : Q () (updv a x (some (i, some (t, u))))) : awp (writeObj x t u) Q E T a := by
  intro w hw; subst hw
  obtain ⟨id, h1⟩ := av_obj hx
  simp only [writeObj, h1, if_true, av_set]; exact h

theorem awp_construct {Q : Unit → AV α → Prop} (c : Cls α) (b : Bool) {x : Var} {i : Int} {t : Nat} {v : α} (hx : a x = some (i, none))
    (h : Q () (updv a x (some (i, some (t, v))))) (he : b = false → Thr c → E a) : awp (construct c b x t v) Q E T a :=
  awp_bind (awp_call c b (awp_place hx h) he)

/-! ### Consistent variables -/

/-- A consistent variable: its index names the alternative that lives in it. -/
def enc (o : Option (Val α)) : Int × Option (Val α) := (match o with
  | none => -1
  | some v => v.1, o)

def leftO (c : Cls α) (o : Option (Val α)) : Option (Val α) := o.map fun v => (v.1, c.moved v.1 v.2)

def InAlt (c : Cls α) (o : Option (Val α)) : Prop := ∀ v, o = some v → v.1 < c.n

theorem case_some {t : Nat} (h : t < 16) : case (t : Int) = some t := by
  simp only [case]; rw [if_pos (by omega)]; simp

theorem case_neg : case (-1) = none := by simp [case]

theorem awp_valueless {Q : Bool → AV α → Prop} {x : Var} {o} (hx : a x = some (enc o)) (h : Q o.isNone a) : awp (valueless x) Q E T a := by
  refine awp_bind (awp_slot hx fun s hs => awp_pure _ ?_)
  rw [hs]
  cases o with
  | none => exact h
  | some v =>
    have : ((v.1 : Int) == -1) = false := by rw [beq_eq_false_iff_ne]; omega
    simp only [enc, this]; exact h

theorem awp_index {Q : Option Nat → AV α → Prop} {x : Var} {o} (hx : a x = some (enc o)) (h : Q (o.map Prod.fst) a) : awp (index x) Q E T a := by
  refine awp_bind (awp_slot hx fun s hs => ?_)
  rw [hs]
  cases o with
  | none => simp only [enc]; exact awp_pure _ h
  | some v =>
    have : ((v.1 : Int) == -1) = false := by rw [beq_eq_false_iff_ne]; omega
    simp only [enc, this, Bool.false_eq_true, if_false]; exact awp_pure _ h

theorem awp_destroy {Q : Unit → AV α → Prop} {c : Cls α} (hn : c.n ≤ 16) {x : Var} {o} (hx : a x = some (enc o)) (ho : InAlt c o)
    (h : Q () (updv a x (some ((enc o).1, none)))) : awp (destroy (enc o).1 x) Q E T a := by
  cases o with
  | none =>
    simp only [enc, destroy, case_neg] at hx h ⊢
    refine awp_pure _ ?_
    rwa [updv_self _ _ _ hx] at h
  | some v =>
    have h16 : v.1 < 16 := Nat.lt_of_lt_of_le (ho v rfl) hn
    simp only [enc, destroy, case_some h16] at hx h ⊢
    exact awp_destroyObj hx h

theorem awp_clear {Q : Unit → AV α → Prop} {c : Cls α} (hn : c.n ≤ 16) {x : Var} {o} (hx : a x = some (enc o)) (ho : InAlt c o)
    (h : Q () (updv a x (some (enc none)))) : awp (clear x) Q E T a := by
  refine awp_bind (awp_slot hx fun s hs => ?_)
  rw [hs]
  refine awp_bind (awp_destroy hn hx ho ?_)
  refine awp_setIdx (updv_same _ _ _) ?_
  rw [updv_updv]; exact h

theorem awp_dtor {Q : Unit → AV α → Prop} {c : Cls α} (hn : c.n ≤ 16) {x : Var} {o} (hx : a x = some (enc o)) (ho : InAlt c o)
    (h : Q () (updv a x none)) : awp (dtor x) Q E T a := by
  refine awp_bind (awp_valueless hx ?_)
  cases o with
  | none => exact awp_undeclare hx h
  | some v =>
    refine awp_bind (awp_slot hx fun s hs => ?_)
    rw [hs]
    refine awp_bind (awp_destroy hn hx ho ?_)
    refine awp_undeclare (updv_same _ _ _) ?_
    rw [updv_updv]; exact h

theorem awp_ctor {Q : Unit → AV α → Prop} {x : Var} {i : Int} {m : M α Unit} (hx : a x = none)
    (h : awp m Q (fun a' => a' = updv a x (some (i, none)) ∧ E a) T (updv a x (some (i, none)))) : awp (ctor x i m) Q E T a := by
  refine awp_bind (awp_declare hx (awp_onExc ?_))
  refine awp_mono h (fun _ _ h => h) ?_ id
  rintro a' ⟨rfl, he⟩
  refine awp_undeclare (updv_same _ _ _) ?_
  rw [updv_updv, updv_self _ _ _ hx]; exact he

/-- The value `s` stands for. -/
def HasV (a : AV α) (t : Nat) (v : α) : Src α → Prop
  | .lit u => v = u
  | .at j => ∃ i, a (.user j) = some (i, some (t, v))

/-- What is left of it. -/
def leaveA (c : Cls α) (m : Bool) (a : AV α) (t : Nat) (v : α) : Src α → AV α
  | .lit _ => a
  | .at j => if m then updv a (.user j) ((a (.user j)).map fun p => (p.1, some (t, c.moved t v))) else a

theorem awp_readSrc {Q : α → AV α → Prop} {s : Src α} {t : Nat} {v : α} (hs : HasV a t v s) (h : Q v a) : awp (readSrc s t) Q E T a := by
  cases s with
  | lit u => simp only [HasV] at hs; subst hs; exact awp_pure _ h
  | «at» j => obtain ⟨i, hi⟩ := hs; exact awp_readObj hi h

theorem awp_leave {Q : Unit → AV α → Prop} (c : Cls α) (m : Bool) {s : Src α} {t : Nat} {v u : α} (hs : HasV a t u s) (h : Q () (leaveA c m a t v s)) :
    awp (leave c m s t v) Q E T a := by
  cases s with
  | lit u => exact awp_pure _ h
  | «at» j =>
    obtain ⟨i, hi⟩ := hs
    simp only [leave, leaveA] at h ⊢
    cases m with
    | false => exact awp_pure _ h
    | true =>
      simp only [if_true] at h ⊢
      refine awp_writeObj hi ?_
      rw [hi] at h; exact h

theorem HasV.other {a : AV α} {t : Nat} {v : α} {s : Src α} (h : HasV a t v s) {x : Var} {p} (hx : ∀ j, s = .at j → Var.user j ≠ x) : HasV (updv a x p) t v s := by
  cases s with
  | lit u => exact h
  | «at» j =>
    obtain ⟨i, hi⟩ := h
    exact ⟨i, by rw [updv_ne _ _ (hx j rfl)]; exact hi⟩

/-- Construction in place. -/
theorem awp_constructFrom {Q : Unit → AV α → Prop} (c : Cls α) (m : Bool) {x : Var} {i : Int} {t : Nat} {s : Src α} {v : α} (hx : a x = some (i, none))
    (hs : HasV a t v s) (h : Q () (leaveA c m (updv a x (some (i, some (t, v)))) t v s)) (he : (m && c.nothrowCtor t) = false → Thr c → E a) :
    awp (constructFrom c m x t s) Q E T a := by
  refine awp_bind (awp_readSrc hs (awp_bind (awp_construct c _ hx ?_ he)))
  refine awp_leave c m (hs.other ?_) h
  rintro j rfl rfl
  obtain ⟨i', hi⟩ := hs
  rw [hx] at hi; cases hi

theorem awp_assignFrom {Q : Unit → AV α → Prop} (c : Cls α) (m : Bool) {x : Var} {i : Int} {t : Nat} {s : Src α} {v u : α} (hx : a x = some (i, some (t, u)))
    (hs : HasV a t v s) (h : Q () (leaveA c m (updv a x (some (i, some (t, v)))) t v s)) (he : (m && c.nothrowAssign t) = false → Thr c → E a) :
    awp (assignFrom c m x t s) Q E T a := by
  refine awp_bind (awp_readSrc hs (awp_bind (awp_readObj hx (awp_bind (awp_call c _ (awp_bind (awp_writeObj hx ?_)) he)))))
  have hs' : HasV (updv a x (some (i, some (t, v)))) t v s := by
    cases s with
    | lit u => exact hs
    | «at» j =>
      by_cases hj : Var.user j = x
      · subst hj; exact ⟨i, updv_same _ _ _⟩
      · obtain ⟨i', hi⟩ := hs
        exact ⟨i', by rw [updv_ne _ _ hj]; exact hi⟩
  exact awp_leave c m hs' h

/-! ### Operations on two variables -/

theorem awp_copyConstruct {Q : Int → AV α → Prop} {c : Cls α} (hn : c.n ≤ 16) {x y : Var} {i : Int} {o} (hy : a y = some (enc o)) (ho : InAlt c o)
    (hx : a x = some (i, none)) (h : Q (enc o).1 (updv a x (some (i, o)))) (he : Thr c → E a) : awp (copyConstruct c (enc o).1 y x) Q E T a := by
  cases o with
  | none =>
    simp only [enc, copyConstruct, case_neg] at h ⊢
    refine awp_pure _ ?_
    rwa [updv_self _ _ _ hx] at h
  | some v =>
    have h16 : v.1 < 16 := Nat.lt_of_lt_of_le (ho v rfl) hn
    simp only [enc, copyConstruct, case_some h16] at hy h ⊢
    exact awp_bind (awp_readObj hy (awp_bind (awp_construct c _ hx (awp_pure _ h) fun _ => he)))

theorem awp_moveConstruct {Q : Int → AV α → Prop} {c : Cls α} (hn : c.n ≤ 16) {x y : Var} {i j : Int} {o} (hy : a y = some (j, o)) (hj : j = (enc o).1)
    (ho : InAlt c o) (hx : a x = some (i, none)) (hxy : x ≠ y) (h : Q (enc o).1 (updv (updv a x (some (i, o))) y (some (enc (leftO c o)))))
    (he : (∃ v, o = some v ∧ c.nothrowCtor v.1 = false) → Thr c → E a) : awp (moveConstruct c (enc o).1 y x) Q E T a := by
  subst hj
  cases o with
  | none =>
    simp only [enc, moveConstruct, case_neg, leftO, Option.map_none] at hy h ⊢
    refine awp_pure _ ?_
    rwa [updv_self _ _ _ hx, updv_self _ _ _ hy] at h
  | some v =>
    have h16 : v.1 < 16 := Nat.lt_of_lt_of_le (ho v rfl) hn
    simp only [enc, moveConstruct, case_some h16, leftO, Option.map_some] at hy h ⊢
    refine awp_bind (awp_readObj hy (awp_bind (awp_construct c _ hx (awp_bind (awp_writeObj (i := v.1) (v := v.2) ?_ (awp_pure _ h))) ?_)))
    · rw [updv_ne _ _ (Ne.symm hxy)]; exact hy
    · exact fun hc => he ⟨v, rfl, hc⟩

theorem awp_ctorMove {Q : Unit → AV α → Prop} {c : Cls α} (hn : c.n ≤ 16) {x y : Var} {o} (hy : a y = some (enc o)) (ho : InAlt c o) (hx : a x = none)
    (h : Q () (updv (updv a x (some (enc o))) y (some (enc (leftO c o))))) (he : (∃ v, o = some v ∧ c.nothrowCtor v.1 = false) → Thr c → E a) :
    awp (ctorMove c x y) Q E T a := by
  have hxy : x ≠ y := by rintro rfl; rw [hx] at hy; cases hy
  refine awp_noexcept _ (awp_bind (awp_slot hy fun s hs => ?_))
  rw [hs]
  refine awp_ctor hx (awp_bind ?_)
  refine awp_moveConstruct hn (y := y) ((updv_ne _ _ (Ne.symm hxy)).trans hy) rfl ho (updv_same _ _ _) hxy (awp_pure _ ?_) ?_
  · rw [updv_updv]; exact h
  · rintro ⟨v, rfl, hc⟩ ht
    refine ⟨rfl, ?_⟩
    have : allCtor c = false := by
      simp only [allCtor, List.all_eq_false, List.mem_range]
      exact ⟨v.1, ho v rfl, by simp [hc]⟩
    rw [this]
    exact he ⟨v, rfl, hc⟩ ht

theorem awp_ctorCopy {Q : Unit → AV α → Prop} {c : Cls α} (hn : c.n ≤ 16) {x y : Var} {o} (hy : a y = some (enc o)) (ho : InAlt c o) (hx : a x = none)
    (h : Q () (updv a x (some (enc o)))) (he : Thr c → E a) : awp (ctorCopy c x y) Q E T a := by
  have hxy : x ≠ y := by rintro rfl; rw [hx] at hy; cases hy
  refine awp_bind (awp_slot hy fun s hs => ?_)
  rw [hs]
  refine awp_ctor hx (awp_bind ?_)
  refine awp_copyConstruct hn (y := y) ((updv_ne _ _ (Ne.symm hxy)).trans hy) ho (updv_same _ _ _) (awp_pure _ ?_) (fun ht => ⟨rfl, he ht⟩)
  rw [updv_updv]; exact h

def altO (o : Option (Val α)) : Option Nat := o.map Prod.fst

theorem awp_assignCopy {Q : Unit → AV α → Prop} {c : Cls α} (hn : c.n ≤ 16) {x y : Var} {p q} (hx : a x = some (enc p)) (hy : a y = some (enc q))
    (hp : InAlt c p) (hq : InAlt c q) (h : Q () (updv a x (some (enc q)))) (he : Thr c → E (if altO p = altO q then a else updv a x (some (enc none)))) :
    awp (assignCopy c x y) Q E T a := by
  refine awp_bind (awp_valueless hx (awp_bind (awp_valueless hy ?_)))
  cases q with
  | none =>
    cases p with
    | none =>
      simp only [Option.isNone_none, Bool.and_self, if_true]
      refine awp_pure _ ?_
      rwa [updv_self _ _ _ hx] at h
    | some u =>
      simp only [Option.isNone_none, Option.isNone_some, Bool.false_and, Bool.false_eq_true, if_false, Bool.not_false, Bool.true_and, if_true]
      exact awp_clear hn hx hp h
  | some v =>
    simp only [Option.isNone_some, Bool.and_false, Bool.false_eq_true, if_false]
    have h16 : v.1 < 16 := Nat.lt_of_lt_of_le (hq v rfl) hn
    refine awp_bind (awp_index hx (awp_bind (awp_index hy ?_)))
    by_cases hal : altO p = altO (some v)
    · rw [if_pos hal] at he
      refine ite_pos hal ?_
      cases p with
      | none => cases hal
      | some u =>
        simp only [altO, Option.map_some, Option.some.injEq] at hal
        refine awp_bind (awp_slot hy fun s hs => ?_)
        rw [hs]
        obtain ⟨k, u⟩ := u
        obtain ⟨k', v⟩ := v
        simp only at hal h16; subst hal
        simp only [enc, copyAssign, case_some h16] at hx hy h ⊢
        refine awp_bind (awp_bind (awp_readObj hy (awp_bind (awp_readObj hx (awp_bind (awp_call c _ (awp_bind (awp_writeObj hx (awp_pure _ ?_))) fun _ => he))))))
        refine awp_setIdx (updv_same _ _ _) ?_
        rw [updv_updv]; exact h
    · rw [if_neg hal] at he
      refine ite_neg hal ?_
      have hxy : y ≠ x := by
        rintro rfl
        rw [hx] at hy
        have : p = some v := by simpa [enc] using congrArg (Option.map Prod.snd) hy
        exact hal (by rw [this])
      refine awp_bind (awp_clear hn hx hp ?_)
      have hy' : updv a x (some (enc none)) y = some (enc (some v)) := by rw [updv_ne _ _ hxy]; exact hy
      refine awp_bind (awp_slot hy' fun s hs => ?_)
      rw [hs]
      refine awp_bind (awp_copyConstruct hn hy' hq (updv_same _ _ _) ?_ he)
      refine awp_setIdx (updv_same _ _ _) ?_
      rw [updv_updv, updv_updv]; exact h

theorem awp_assignMove {Q : Unit → AV α → Prop} {c : Cls α} (hn : c.n ≤ 16) {x y : Var} {p q} (hx : a x = some (enc p)) (hy : a y = some (enc q))
    (hp : InAlt c p) (hq : InAlt c q) (h : Q () (updv (updv a x (some (enc q))) y (some (enc (leftO c q)))))
    (he : Thr c → (∃ v, q = some v ∧ (if altO p = altO q then c.nothrowAssign v.1 else c.nothrowCtor v.1) = false) → allAssign c = false →
      E (if altO p = altO q then a else updv a x (some (enc none))))
    (hT : Thr c → allAssign c = true → altO p ≠ altO q → (∃ v, q = some v ∧ c.nothrowCtor v.1 = false) → T) :
    awp (assignMove c x y) Q E T a := by
  refine awp_noexcept _ (awp_bind (awp_valueless hx (awp_bind (awp_valueless hy ?_))))
  cases q with
  | none =>
    have hxy : x = y ∨ x ≠ y := em _
    cases p with
    | none =>
      simp only [Option.isNone_none, Bool.and_self, if_true]
      refine awp_pure _ ?_
      simp only [leftO, Option.map_none] at h
      rwa [updv_self _ _ _ hx, updv_self _ _ _ hy] at h
    | some u =>
      simp only [Option.isNone_none, Option.isNone_some, Bool.false_and, Bool.false_eq_true, if_false, Bool.not_false, Bool.true_and, if_true]
      refine awp_clear hn hx hp ?_
      simp only [leftO, Option.map_none] at h
      rcases hxy with rfl | hxy
      · simpa using h
      · rwa [updv_self _ y _ ((updv_ne _ _ (Ne.symm hxy)).trans hy)] at h
  | some v =>
    simp only [Option.isNone_some, Bool.and_false, Bool.false_eq_true, if_false]
    have h16 : v.1 < 16 := Nat.lt_of_lt_of_le (hq v rfl) hn
    refine awp_bind (awp_index hx (awp_bind (awp_index hy ?_)))
    by_cases hal : altO p = altO (some v)
    · simp only [if_pos hal] at he
      refine ite_pos hal ?_
      cases p with
      | none => cases hal
      | some u =>
        simp only [altO, Option.map_some, Option.some.injEq] at hal
        refine awp_bind (awp_slot hy fun s hs => ?_)
        rw [hs]
        obtain ⟨k, u⟩ := u
        obtain ⟨k', v⟩ := v
        simp only at hal h16; subst hal
        simp only [enc, moveAssign, case_some h16, leftO, Option.map_some] at hx hy h he ⊢
        refine awp_bind (awp_bind (awp_readObj hy (awp_bind (awp_readObj hx (awp_bind (awp_call c _ (awp_bind (awp_writeObj hx ?_)) ?_))))))
        · by_cases hxy : y = x
          · subst hxy
            refine awp_bind (awp_writeObj (updv_same _ _ _) (awp_pure _ ?_))
            rw [updv_updv]
            refine awp_setIdx (updv_same _ _ _) ?_
            simpa using h
          · refine awp_bind (awp_writeObj (i := k) (v := v) (by rw [updv_ne _ _ hxy]; exact hy) (awp_pure _ ?_))
            refine awp_setIdx (p := (↑k, some (k, v))) (by rw [updv_ne _ _ (Ne.symm hxy), updv_same]) ?_
            rw [updv_comm _ (Ne.symm hxy), updv_updv, ← updv_comm _ (Ne.symm hxy)]; exact h
        · intro hc ht
          have : allAssign c = false := by
            simp only [allAssign, List.all_eq_false, List.mem_range]
            exact ⟨k, hq _ rfl, by simp [hc]⟩
          rw [this]
          exact he ht ⟨_, rfl, hc⟩ this
    · simp only [if_neg hal] at he
      refine ite_neg hal ?_
      have hxy : y ≠ x := by
        rintro rfl
        rw [hx] at hy
        have : p = some v := by simpa [enc] using congrArg (Option.map Prod.snd) hy
        exact hal (by rw [this])
      refine awp_bind (awp_clear hn hx hp ?_)
      have hy' : updv a x (some (enc none)) y = some (enc (some v)) := by rw [updv_ne _ _ hxy]; exact hy
      refine awp_bind (awp_slot hy' fun s hs => ?_)
      rw [hs]
      refine awp_bind (awp_moveConstruct hn hy' rfl hq (updv_same _ _ _) (Ne.symm hxy) ?_ ?_)
      · refine awp_setIdx (p := ((enc none : Int × Option (Val α)).1, some v)) (by rw [updv_ne _ _ (Ne.symm hxy), updv_same]; rfl) ?_
        rw [updv_updv, updv_comm _ (Ne.symm hxy), updv_updv, ← updv_comm _ (Ne.symm hxy)]; exact h
      · intro hc ht
        split
        · rename_i hb; exact hT ht hb hal hc
        · rename_i hb; exact he ht hc (by simpa using hb)

/-- What `swap` leaves when it throws. -/
def SwapE (c : Cls α) (a : AV α) (x y : Var) (p q : Option (Val α)) (a' : AV α) : Prop :=
  a' = a ∨
  if x = y then a' = updv a x (some (enc (leftO c p))) ∨ a' = updv a x (some (enc (leftO c (leftO c p))))
  else if altO p = altO q then a' = updv a x (some (enc (leftO c p))) ∨ a' = updv (updv a x (some (enc q))) y (some (enc (leftO c q)))
  else a' = updv a x (some (enc none)) ∨ a' = updv (updv a x (some (enc q))) y (some (enc none))

theorem awp_swapValue {Q : Unit → AV α → Prop} {c : Cls α} (hn : c.n ≤ 16) {x y : Var} {t : Nat} {v u : α} (ht16 : t < c.n) (hx : a x = some (enc (some (t, v))))
    (hy : a y = some (enc (some (t, u)))) (hval : a .val = none) (h : Q () (updv (updv a x (some (enc (some (t, u))))) y (some (enc (some (t, v))))))
    (he : Thr c → (c.nothrowCtor t && c.nothrowAssign t) = false → ∀ a', SwapE c a x y (some (t, v)) (some (t, u)) a' → E a') :
    awp (swapValue c t x y) Q E T a := by
  have h16 : t < 16 := Nat.lt_of_lt_of_le ht16 hn
  have hxv : x ≠ .val := by rintro rfl; rw [hval] at hx; cases hx
  have hyv : y ≠ .val := by rintro rfl; rw [hval] at hy; cases hy
  simp only [swapValue, case_some h16]
  have he' : ∀ a', (c.nothrowCtor t = false ∨ c.nothrowAssign t = false) → Thr c → SwapE c a x y (some (t, v)) (some (t, u)) a' →
      if (c.nothrowCtor t && c.nothrowAssign t) = true then T else E a' := by
    intro a' hb ht hs
    have : (c.nothrowCtor t && c.nothrowAssign t) = false := by rcases hb with hb | hb <;> simp [hb]
    simp only [this, Bool.false_eq_true, if_false]
    exact he ht this a' hs
  refine awp_noexcept _ (awp_bind (awp_readObj hx (awp_bind (awp_declare hval (awp_bind (awp_onExc (awp_construct c _ (updv_same _ _ _) ?_ ?_)))))))
  · rw [updv_updv]
    -- the temporary's end
    have fin : ∀ (b : AV α) (v' : α) {Q' : Unit → AV α → Prop} {E' : AV α → Prop} {T' : Prop}, b .val = some (-1, some (t, v')) → Q' () (updv b .val none) →
        awp (do destroyObj .val t; undeclare .val) Q' E' T' b := by
      intro b v' Q' E' T' hb hq
      refine awp_bind (awp_destroyObj hb (awp_undeclare (updv_same _ _ _) ?_))
      rwa [updv_updv]
    have out : ∀ (b : AV α) (p), updv (updv (updv b .val p) x (some (enc (leftO c (some (t, v)))))) .val none = updv (updv b x (some (enc (leftO c (some (t, v)))))) .val none := by
      intro b p; rw [updv_comm _ (Ne.symm hxv), updv_updv]
    refine awp_finally (awp_bind (awp_writeObj (i := t) (v := v) (by rw [updv_ne _ _ hxv]; exact hx) ?_))
    have hself : ∀ b : AV α, b .val = none → updv b .val none = b := fun b hb => updv_self _ _ _ hb
    by_cases hxy : x = y
    · subst hxy
      refine awp_bind (awp_readObj (updv_same _ _ _) (awp_bind (awp_call c _ (awp_bind (awp_writeObj (updv_same _ _ _) (awp_bind (awp_writeObj (updv_same _ _ _)
        (awp_bind (awp_call c _ (awp_bind (awp_writeObj (updv_same _ _ _) (awp_writeObj (i := -1) (v := v) ?_ (fin _ _ (updv_same _ _ _) ?_)))) ?_)))))) ?_)))
      · simp only [updv_updv]; rw [updv_ne _ _ (Ne.symm hxv), updv_same]
      · simp only [updv_updv]
        have huv : u = v := by rw [hx] at hy; simpa [enc] using hy.symm
        subst huv
        rw [updv_comm _ (Ne.symm hxv), updv_updv, hself _ (by rw [updv_ne _ _ (Ne.symm hxv)]; exact hval)]
        simpa [enc] using h
      · intro hb ht
        simp only [updv_updv]
        refine fin _ v (by rw [updv_ne _ _ (Ne.symm hxv), updv_same]) (he' _ (.inr hb) ht ?_)
        rw [updv_comm _ (Ne.symm hxv), updv_updv, hself _ (by rw [updv_ne _ _ (Ne.symm hxv)]; exact hval)]
        exact .inr (by rw [if_pos rfl]; exact .inr rfl)
      · intro hb ht
        refine fin _ v (by rw [updv_ne _ _ (Ne.symm hxv), updv_same]) (he' _ (.inr hb) ht ?_)
        rw [updv_comm _ (Ne.symm hxv), updv_updv, hself _ (by rw [updv_ne _ _ (Ne.symm hxv)]; exact hval)]
        exact .inr (by rw [if_pos rfl]; exact .inl rfl)
    · have hyx : y ≠ x := Ne.symm hxy
      refine awp_bind (awp_readObj (i := t) (v := u) ?_ (awp_bind (awp_call c _ (awp_bind (awp_writeObj (updv_same _ _ _) (awp_bind (awp_writeObj (i := t) (v := u) ?_
        (awp_bind (awp_call c _ (awp_bind (awp_writeObj (updv_same _ _ _) (awp_writeObj (i := -1) (v := v) ?_ (fin _ _ (updv_same _ _ _) ?_)))) ?_)))))) ?_)))
      · rw [updv_ne _ _ hyx, updv_ne _ _ hyv]; exact hy
      · rw [updv_updv, updv_ne _ _ hyx, updv_ne _ _ hyv]; exact hy
      · simp only [updv_updv]; rw [updv_ne _ _ (Ne.symm hyv), updv_ne _ _ (Ne.symm hxv), updv_same]
      · simp only [updv_updv]
        rw [updv_comm _ (Ne.symm hxv), updv_comm _ (Ne.symm hyv), updv_updv, hself _ (by rw [updv_ne _ _ (Ne.symm hyv), updv_ne _ _ (Ne.symm hxv)]; exact hval)]
        exact h
      · intro hb ht
        simp only [updv_updv]
        refine fin _ v (by rw [updv_ne _ _ (Ne.symm hyv), updv_ne _ _ (Ne.symm hxv), updv_same]) (he' _ (.inr hb) ht ?_)
        rw [updv_comm _ (Ne.symm hxv), updv_comm _ (Ne.symm hyv), updv_updv, hself _ (by rw [updv_ne _ _ (Ne.symm hyv), updv_ne _ _ (Ne.symm hxv)]; exact hval)]
        exact .inr (by rw [if_neg hxy, if_pos (show altO (some (t, v)) = altO (some (t, u)) from rfl)]; exact .inr rfl)
      · intro hb ht
        refine fin _ v (by rw [updv_ne _ _ (Ne.symm hxv), updv_same]) (he' _ (.inr hb) ht ?_)
        rw [updv_comm _ (Ne.symm hxv), updv_updv, hself _ (by rw [updv_ne _ _ (Ne.symm hxv)]; exact hval)]
        exact .inr (by rw [if_neg hxy, if_pos (show altO (some (t, v)) = altO (some (t, u)) from rfl)]; exact .inl rfl)
  · intro hb ht
    refine awp_undeclare (updv_same _ _ _) ?_
    rw [updv_updv, updv_self _ _ _ hval]
    exact he' _ (.inl hb) ht (.inl rfl)

theorem awp_swap {Q : Unit → AV α → Prop} {c : Cls α} (hn : c.n ≤ 16) {x y : Var} {p q} (hx : a x = some (enc p)) (hy : a y = some (enc q)) (hp : InAlt c p)
    (hq : InAlt c q) (hval : a .val = none) (htmp : a .tmp = none) (h : Q () (updv (updv a x (some (enc q))) y (some (enc p))))
    (he : Thr c → allSwap c = false → ∀ a', SwapE c a x y p q a' → E a')
    (hT : Thr c → allAssign c = true → allCtor c = false → altO p ≠ altO q → T) :
    awp (swap c x y) Q E T a := by
  have hxt : x ≠ .tmp := by rintro rfl; rw [htmp] at hx; cases hx
  have hyt : y ≠ .tmp := by rintro rfl; rw [htmp] at hy; cases hy
  have fa : ∀ {o : Option (Val α)} {v : Val α}, InAlt c o → o = some v → ∀ {f : Nat → Bool}, f v.1 = false → (List.range c.n).all f = false := by
    intro o v ho e f hf
    simp only [List.all_eq_false, List.mem_range]
    exact ⟨v.1, ho v e, by simp [hf]⟩
  have he' : ∀ a', allSwap c = false → Thr c → SwapE c a x y p q a' → if allSwap c = true then T else E a' := by
    intro a' hb ht hs
    simp only [hb, Bool.false_eq_true, if_false]
    exact he ht hb a' hs
  refine awp_noexcept _ (awp_bind (awp_valueless hx (awp_bind (awp_valueless hy ?_))))
  by_cases hv : p = none ∧ q = none
  · obtain ⟨rfl, rfl⟩ := hv
    refine awp_pure _ ?_
    rwa [updv_self _ _ _ hx, updv_self _ _ _ hy] at h
  · have hb : (p.isNone && q.isNone) = false := by
      cases p <;> cases q <;> simp at hv ⊢
    rw [hb]
    simp only [Bool.false_eq_true, if_false]
    refine awp_bind (awp_slot hx fun s hs => awp_bind (awp_slot hy fun s' hs' => ?_))
    rw [hs, hs']
    by_cases hal : altO p = altO q
    · have hi : (enc p).1 = (enc q).1 := by
        cases p <;> cases q <;> simp_all [altO, enc]
      refine ite_pos hi ?_
      cases p with
      | none =>
        cases q with
        | none => exact absurd ⟨rfl, rfl⟩ hv
        | some _ => cases hal
      | some v =>
        cases q with
        | none => cases hal
        | some u =>
          obtain ⟨t, v⟩ := v
          obtain ⟨t', u⟩ := u
          simp only [altO, Option.map_some, Option.some.injEq] at hal
          subst hal
          refine awp_swapValue hn (hp _ rfl) hx hy hval h fun ht hc a' hs => he' a' ?_ ht hs
          exact fa hp rfl (f := fun t => c.nothrowCtor t && (c.nothrowCtor t && c.nothrowAssign t)) (by simp only [hc, Bool.and_false])
    · have hi : (enc p).1 ≠ (enc q).1 := by
        cases p <;> cases q <;> simp_all [altO, enc] <;> omega
      have hxy : x ≠ y := by
        rintro rfl
        rw [hx] at hy
        have : p = q := by simpa [enc] using congrArg (Option.map Prod.snd) hy
        exact hal (by rw [this])
      have hyx : y ≠ x := Ne.symm hxy
      refine ite_neg hi (awp_bind (awp_ctorMove hn hx hp htmp ?_ ?_))
      · -- now tmp has `p`, `x` is moved from
        have hpl : InAlt c (leftO c p) := by
          intro v hv; cases p with
          | none => cases hv
          | some u => simp only [leftO, Option.map_some, Option.some.injEq] at hv; subst hv; exact hp u rfl
        have hql : InAlt c (leftO c q) := by
          intro v hv; cases q with
          | none => cases hv
          | some u => simp only [leftO, Option.map_some, Option.some.injEq] at hv; subst hv; exact hq u rfl
        have alL : ∀ o : Option (Val α), altO (leftO c o) = altO o := by intro o; cases o <;> rfl
        have dt : ∀ (b : AV α) (o) {Q' : Unit → AV α → Prop} {E' : AV α → Prop} {T' : Prop}, InAlt c o → b .tmp = some (enc o) → Q' () (updv b .tmp none) →
            awp (dtor .tmp) Q' E' T' b := fun b o Q' E' T' ho hb hq => awp_dtor hn hb ho hq
        have hself : ∀ b : AV α, b .tmp = none → updv b .tmp none = b := fun b hb => updv_self _ _ _ hb
        refine awp_finally (awp_bind (awp_assignMove hn (x := x) (y := y) (p := leftO c p) (q := q) (updv_same _ _ _) ?_ hpl hq ?_ ?_ ?_))
        · rw [updv_ne _ _ hyx, updv_ne _ _ hyt]; exact hy
        · simp only [updv_updv]
          refine awp_assignMove hn (x := y) (y := .tmp) (p := leftO c q) (q := p) (updv_same _ _ _) ?_ hql hp (dt _ _ hpl (updv_same _ _ _) ?_) ?_ ?_
          · rw [updv_ne _ _ (Ne.symm hyt), updv_ne _ _ (Ne.symm hxt), updv_same]
          · simp only [updv_updv]
            rw [updv_comm _ (Ne.symm hxt), updv_comm _ (Ne.symm hyt), updv_updv, hself _ (by rw [updv_ne _ _ (Ne.symm hyt), updv_ne _ _ (Ne.symm hxt)]; exact htmp)]
            exact h
          · rintro ht ⟨v, rfl, hv⟩ hA
            rw [alL] at hv
            rw [if_neg (Ne.symm hal)] at hv
            rw [alL, if_neg (Ne.symm hal)]
            refine dt _ _ hp (by rw [updv_updv, updv_ne _ _ (Ne.symm hyt), updv_ne _ _ (Ne.symm hxt), updv_same]) (he' _ ?_ ht ?_)
            · exact fa hp rfl (f := fun t => c.nothrowCtor t && (c.nothrowCtor t && c.nothrowAssign t)) (by simp [hv])
            · rw [updv_updv, updv_comm _ (Ne.symm hxt), updv_comm _ (Ne.symm hyt), updv_updv, hself _ (by rw [updv_ne _ _ (Ne.symm hyt), updv_ne _ _ (Ne.symm hxt)]; exact htmp)]
              exact .inr (by rw [if_neg hxy, if_neg hal]; exact .inr rfl)
          · rintro ht hA - ⟨v, rfl, hc⟩
            exact hT ht hA (fa hp rfl hc) hal
        · rintro ht ⟨v, rfl, hv⟩ hA
          rw [alL] at hv ⊢
          rw [if_neg hal] at hv ⊢
          rw [updv_updv]
          refine dt _ _ hp (by rw [updv_ne _ _ (Ne.symm hxt), updv_same]) (he' _ ?_ ht ?_)
          · exact fa hq rfl (f := fun t => c.nothrowCtor t && (c.nothrowCtor t && c.nothrowAssign t)) (by simp [hv])
          · rw [updv_comm _ (Ne.symm hxt), updv_updv, hself _ (by rw [updv_ne _ _ (Ne.symm hxt)]; exact htmp)]
            exact .inr (by rw [if_neg hxy, if_neg hal]; exact .inl rfl)
        · rintro ht hA - ⟨v, rfl, hc⟩
          exact hT ht hA (fa hq rfl hc) hal
      · rintro ⟨v, rfl, hc⟩ ht
        exact he' _ (fa hp rfl (f := fun t => c.nothrowCtor t && (c.nothrowCtor t && c.nothrowAssign t)) (by simp [hc])) ht (.inl rfl)

end Nanostl.Variant
