import Verif.Any.Spec
import Mathlib.Tactic.Common

/-! Invariant of `any` and its proof for every command. -/

namespace Nanostl.Any

variable {α : Type}

open Spec

theorem bind_eq {β γ : Type} (m : M α β) (f : β → M α γ) : (m >>= f) = M.bind m f := rfl
theorem pure_eq {β : Type} (b : β) : (pure b : M α β) = M.pure b := rfl

structure Inv (w : W α) : Prop where
  inj : ∀ x y b, w.vars x = some (some b) → w.vars y = some (some b) → x = y
  own : ∀ b, w.heap b ≠ none ↔ ∃ x, w.vars x = some (some b)
  tr : ∃ f, life w.evs (fun _ => none) = some f ∧ (∀ id, f id = none ↔ w.next ≤ id) ∧ ∀ id, f id = some true ↔ w.heap id ≠ none

theorem inv_init : Inv (init : W α) where
  inj _ _ _ h := by cases h
  own b := by simp [init]
  tr := ⟨fun _ => none, rfl, by simp [init], by simp [init]⟩

theorem life_append (es : List Ev) (e : List Ev) (f : Life) : life (es ++ e) f = (life es f).bind (life e) := by
  induction es generalizing f with
  | nil => rfl
  | cons x es ih =>
    cases x <;> simp only [List.cons_append, life] <;> split <;> simp [ih]

/-- Contents of all variables, the temporaries too. -/
abbrev CV (α : Type) := Var → Option (Option (Nat × α))
def cv (w : W α) : CV α := fun x => (w.vars x).map (·.bind w.heap)
def updv (f : CV α) (x : Var) (v : Option (Option (Nat × α))) : CV α := fun y => if y = x then v else f y

theorem cv_none {w : W α} {x : Var} : cv w x = none ↔ w.vars x = none := by simp [cv]

theorem Inv.cell {w : W α} (h : Inv w) {x : Var} {b : Nat} (hx : w.vars x = some (some b)) : ∃ v, w.heap b = some v :=
  Option.ne_none_iff_exists'.1 ((h.own b).2 ⟨x, hx⟩)

theorem Inv.fresh {w : W α} (h : Inv w) : w.heap w.next = none ∧ ∀ x, w.vars x ≠ some (some w.next) := by
  obtain ⟨f, -, h2, h3⟩ := h.tr
  have : w.heap w.next = none := by
    by_contra hc
    have := (h3 _).2 hc
    rw [(h2 _).2 (Nat.le_refl _)] at this
    cases this
  exact ⟨this, fun x hx => (h.own _).2 ⟨x, hx⟩ this⟩

theorem Inv.calls {w : W α} (h : Inv w) (n : Nat) : Inv { w with calls := n } := ⟨h.inj, h.own, h.tr⟩

/-- A new object in a new cell, owned by a new variable. -/
theorem Inv.new {w : W α} (h : Inv w) {x : Var} (hx : w.vars x = none) (v : Nat × α) (n : Nat) :
    Inv { vars := fun y => if y = x then some (some w.next) else w.vars y, heap := fun y => if y = w.next then some v else w.heap y, calls := n,
          next := w.next + 1, evs := w.evs ++ [Ev.cons w.next] } ∧
    cv { vars := fun y => if y = x then some (some w.next) else w.vars y, heap := fun y => if y = w.next then some v else w.heap y, calls := n,
          next := w.next + 1, evs := w.evs ++ [Ev.cons w.next] } = updv (cv w) x (some (some v)) := by
  obtain ⟨f1, f2⟩ := h.fresh
  refine ⟨⟨?_, ?_, ?_⟩, ?_⟩
  · intro y z b hy hz
    simp only at hy hz
    split at hy <;> split at hz
    · simp_all
    · simp only [Option.some.injEq] at hy; subst hy; exact absurd hz (f2 z)
    · simp only [Option.some.injEq] at hz; subst hz; exact absurd hy (f2 y)
    · exact h.inj y z b hy hz
  · intro b
    simp only
    by_cases hb : b = w.next
    · subst hb; simp only [if_true, ne_eq, reduceCtorEq, not_false_eq_true, true_iff]; exact ⟨x, by simp⟩
    · rw [if_neg hb, h.own b]
      constructor
      · rintro ⟨y, hy⟩; refine ⟨y, ?_⟩; rw [if_neg]; · exact hy
        rintro rfl; rw [hx] at hy; cases hy
      · rintro ⟨y, hy⟩
        split at hy
        · simp only [Option.some.injEq] at hy; exact absurd hy.symm hb
        · exact ⟨y, hy⟩
  · obtain ⟨f, t1, t2, t3⟩ := h.tr
    refine ⟨fun j => if j = w.next then some true else f j, ?_, ?_, ?_⟩
    · simp only [life_append, t1, Option.bind_some, life, (t2 _).2 (Nat.le_refl _), if_true]
    · intro id; simp only
      split
      · subst id; simp
      · rw [t2]; omega
    · intro id; simp only
      split
      · simp
      · exact t3 id
  · funext y
    simp only [cv, updv]
    split
    · simp
    · cases hv : w.vars y with
      | none => rfl
      | some p =>
        cases p with
        | none => rfl
        | some b =>
          have : b ≠ w.next := by rintro rfl; exact f2 y hv
          simp [this]

/-- The value in a cell changes. -/
theorem Inv.wr {w : W α} (h : Inv w) {x : Var} {b : Nat} (hx : w.vars x = some (some b)) (v : Nat × α) :
    Inv { w with heap := fun y => if y = b then some v else w.heap y } ∧
    cv { w with heap := fun y => if y = b then some v else w.heap y } = updv (cv w) x (some (some v)) := by
  obtain ⟨u, hu⟩ := h.cell hx
  have e : ∀ id, (if id = b then some v else w.heap id) ≠ none ↔ w.heap id ≠ none := by
    intro id; split
    · subst id; simp [hu]
    · rfl
  refine ⟨⟨h.inj, fun b' => (e b').trans (h.own b'), ?_⟩, ?_⟩
  · obtain ⟨f, t1, t2, t3⟩ := h.tr
    exact ⟨f, t1, t2, fun id => (t3 id).trans (e id).symm⟩
  · funext y
    simp only [cv, updv]
    split
    · subst y; simp [hx]
    · rename_i hy
      cases hv : w.vars y with
      | none => rfl
      | some p =>
        cases p with
        | none => rfl
        | some b' =>
          have : b' ≠ b := by rintro rfl; exact hy (h.inj _ _ _ hv hx)
          simp [this]

/-- Only the owners change. -/
theorem Inv.vars {w : W α} (h : Inv w) {g : Var → Option (Option Nat)} (hi : ∀ x y b, g x = some (some b) → g y = some (some b) → x = y)
    (ho : ∀ b, (∃ x, w.vars x = some (some b)) ↔ ∃ x, g x = some (some b)) : Inv { w with vars := g } :=
  ⟨hi, fun b => (h.own b).trans (ho b), h.tr⟩

/-- A cell is freed and its owner emptied or ended. -/
theorem Inv.free {w : W α} (h : Inv w) {x : Var} {b : Nat} (hx : w.vars x = some (some b)) (p : Option (Option Nat)) (hp : p = none ∨ p = some none) :
    Inv { w with vars := fun y => if y = x then p else w.vars y, heap := fun y => if y = b then none else w.heap y, evs := w.evs ++ [Ev.dest b] } ∧
    cv { w with vars := fun y => if y = x then p else w.vars y, heap := fun y => if y = b then none else w.heap y, evs := w.evs ++ [Ev.dest b] } =
      updv (cv w) x (p.map fun _ => none) := by
  obtain ⟨u, hu⟩ := h.cell hx
  have hp' : p ≠ some (some ‹_›) := by rcases hp with rfl | rfl <;> simp
  have hpb : ∀ b', p ≠ some (some b') := by intro b'; rcases hp with rfl | rfl <;> simp
  refine ⟨⟨?_, ?_, ?_⟩, ?_⟩
  · intro y z b' hy hz
    simp only at hy hz
    split at hy
    · exact absurd hy (hpb _)
    · split at hz
      · exact absurd hz (hpb _)
      · exact h.inj y z b' hy hz
  · intro b'
    simp only
    by_cases hb : b' = b
    · subst hb
      simp only [if_true, ne_eq, not_true_eq_false, false_iff, not_exists]
      intro y hy
      split at hy
      · exact hpb _ hy
      · rename_i hn; exact hn (h.inj _ _ _ hy hx)
    · rw [if_neg hb, h.own]
      constructor
      · rintro ⟨y, hy⟩
        refine ⟨y, ?_⟩
        rw [if_neg]; · exact hy
        rintro rfl
        rw [hx] at hy
        simp only [Option.some.injEq] at hy
        exact hb hy.symm
      · rintro ⟨y, hy⟩
        split at hy
        · exact absurd hy (hpb _)
        · exact ⟨y, hy⟩
  · obtain ⟨f, t1, t2, t3⟩ := h.tr
    have hl : f b = some true := (t3 b).2 (by simp [hu])
    refine ⟨fun j => if j = b then some false else f j, ?_, ?_, ?_⟩
    · simp only [life_append, t1, Option.bind_some, life, hl, if_true]
    · intro id; simp only
      split
      · subst id
        have := t2 b
        rw [hl] at this
        simpa using this
      · exact t2 id
    · intro id; simp only
      split
      · simp
      · exact t3 id
  · funext y
    simp only [cv, updv]
    split
    · rcases hp with rfl | rfl <;> rfl
    · rename_i hy
      cases hv : w.vars y with
      | none => rfl
      | some q =>
        cases q with
        | none => rfl
        | some b' =>
          have : b' ≠ b := by rintro rfl; exact hy (h.inj _ _ _ hv hx)
          simp [this]

/-! ### Operations -/

/-- `m` ends normally with the given contents. -/
def Ok (m : M α Unit) (w : W α) (f : CV α) : Prop := ∃ w', m w = .ok w' () ∧ Inv w' ∧ cv w' = f
/-- `m` throws and changes nothing. -/
def Exc (c : Cls α) (m : M α Unit) (w : W α) : Prop := (∃ n, c.throws n = true) ∧ ∃ w', m w = .exc w' ∧ Inv w' ∧ cv w' = cv w
def Term (c : Cls α) (m : M α Unit) (w : W α) : Prop := (∃ n, c.throws n = true) ∧ m w = .term

theorem Ok.seq {m : M α Unit} {k : Unit → M α Unit} {w : W α} {f g : CV α} (h : Ok m w f) (hk : ∀ w', Inv w' → cv w' = f → Ok (k ()) w' g) : Ok (m >>= k) w g := by
  obtain ⟨w1, e1, i1, c1⟩ := h
  obtain ⟨w2, e2, i2, c2⟩ := hk w1 i1 c1
  exact ⟨w2, by simp only [bind_eq, M.bind, e1, e2], i2, c2⟩

theorem Ok.noexcept {m : M α Unit} {w : W α} {f : CV α} (h : Ok m w f) : Ok (M.noexcept m) w f := by
  obtain ⟨w1, e1, i1, c1⟩ := h
  exact ⟨w1, by simp only [M.noexcept, e1], i1, c1⟩

theorem Ok.fin {m d : M α Unit} {w : W α} {f g : CV α} (h : Ok m w f) (hd : ∀ w', Inv w' → cv w' = f → Ok d w' g) : Ok (M.finally_ m d) w g := by
  obtain ⟨w1, e1, i1, c1⟩ := h
  obtain ⟨w2, e2, i2, c2⟩ := hd w1 i1 c1
  exact ⟨w2, by simp only [M.finally_, e1, e2], i2, c2⟩

theorem ok_declare_none {w : W α} (h : Inv w) {x : Var} (hx : cv w x = none) : Ok (declare x none) w (updv (cv w) x (some none)) := by
  rw [cv_none] at hx
  refine ⟨w.set x (some none), by simp [declare, hx], h.vars ?_ ?_, ?_⟩
  · intro y z b hy hz
    split at hy
    · cases hy
    · split at hz
      · cases hz
      · exact h.inj _ _ _ hy hz
  · intro b
    constructor
    · rintro ⟨y, hy⟩
      refine ⟨y, ?_⟩
      rw [if_neg]; · exact hy
      rintro rfl; rw [hx] at hy; cases hy
    · rintro ⟨y, hy⟩
      split at hy
      · cases hy
      · exact ⟨y, hy⟩
  · funext y; simp only [cv, updv, W.set]; split <;> rfl

theorem newHolder_eq (c : Cls α) (m : Bool) (v : Nat × α) (w : W α) :
    (∃ n, newHolder c m v w = place v { w with calls := n }) ∨ ((∃ n, c.throws n = true) ∧ ∃ n, newHolder c m v w = .exc { w with calls := n }) := by
  by_cases h1 : c.throws w.calls = true
  · exact .inr ⟨⟨_, h1⟩, _, by simp [newHolder, bind_eq, M.bind, call, h1]; rfl⟩
  · by_cases h2 : (m && c.nothrowMove v.1) = true
    · exact .inl ⟨_, by simp [newHolder, bind_eq, M.bind, call, h1, h2]; rfl⟩
    · by_cases h3 : c.throws (w.calls + 1) = true
      · exact .inr ⟨⟨_, h3⟩, _, by simp [newHolder, bind_eq, M.bind, call, h1, h2, h3]; rfl⟩
      · exact .inl ⟨_, by simp [newHolder, bind_eq, M.bind, call, h1, h2, h3]; rfl⟩

theorem ok_place_declare {w : W α} (h : Inv w) {x : Var} (hx : cv w x = none) (v : Nat × α) (n : Nat) :
    Ok (do let q ← place v; declare x (some q)) { w with calls := n } (updv (cv w) x (some (some v))) := by
  rw [cv_none] at hx
  obtain ⟨a, b⟩ := h.new hx v n
  exact ⟨_, by simp only [bind_eq, M.bind, place, declare, hx]; rfl, a, b⟩

theorem new_declare (c : Cls α) {w : W α} (h : Inv w) {x : Var} (hx : cv w x = none) (m : Bool) (v : Nat × α) :
    Ok (do let q ← newHolder c m v; declare x (some q)) w (updv (cv w) x (some (some v))) ∨
    Exc c (do let q ← newHolder c m v; declare x (some q)) w := by
  rcases newHolder_eq c m v w with ⟨n, e⟩ | ⟨ht, n, e⟩
  · left
    obtain ⟨w', e', i', c'⟩ := ok_place_declare h hx v n
    refine ⟨w', ?_, i', c'⟩
    simp only [bind_eq, M.bind] at e' ⊢
    rw [e]; exact e'
  · right
    exact ⟨ht, _, by simp only [bind_eq, M.bind]; rw [e], h.calls n, rfl⟩

theorem ctorCopy_spec (c : Cls α) {w : W α} (h : Inv w) {x y : Var} (hx : cv w x = none) (hy : cv w y ≠ none) :
    Ok (ctorCopy c x y) w (updv (cv w) x (cv w y)) ∨ Exc c (ctorCopy c x y) w := by
  obtain ⟨p, hp⟩ := Option.ne_none_iff_exists'.1 (mt cv_none.2 hy)
  cases p with
  | none =>
    left
    obtain ⟨w', e, i, r⟩ := ok_declare_none h hx
    exact ⟨w', by simp only [ctorCopy, bind_eq, M.bind, content, hp]; exact e, i, by rw [r]; simp [cv, hp]⟩
  | some b =>
    obtain ⟨v, hv⟩ := h.cell hp
    have e : ctorCopy c x y w = (do let q ← newHolder c false v; declare x (some q) : M α Unit) w := by
      simp only [ctorCopy, clone, bind_eq, M.bind, content, hp, deref, hv]
    have hc : cv w y = some (some v) := by simp [cv, hp, hv]
    rw [hc]
    rcases new_declare c h hx false v with ⟨w', h1⟩ | ⟨h1, w', h2⟩
    · exact .inl ⟨w', by rw [e]; exact h1.1, h1.2⟩
    · exact .inr ⟨h1, w', by rw [e]; exact h2.1, h2.2⟩

theorem ctorMove_spec {w : W α} (h : Inv w) {x y : Var} (hx : cv w x = none) (hy : cv w y ≠ none) :
    Ok (ctorMove x y) w (updv (updv (cv w) x (cv w y)) y (some none)) := by
  obtain ⟨p, hp⟩ := Option.ne_none_iff_exists'.1 (mt cv_none.2 hy)
  rw [cv_none] at hx
  have hne : y ≠ x := by rintro rfl; rw [hx] at hp; cases hp
  apply Ok.noexcept
  refine ⟨(w.set x (some p)).set y (some none), by simp [bind_eq, M.bind, content, hp, declare, hx, setContent, W.set, hne], h.vars ?_ ?_, ?_⟩
  · intro a z b ha hz
    simp only [W.set] at ha hz
    split at ha
    · cases ha
    · split at hz
      · cases hz
      · split at ha <;> split at hz
        · simp_all
        · simp only [Option.some.injEq] at ha; subst ha; rename_i h3 _ _; exact absurd (h.inj _ _ _ hz hp) h3
        · simp only [Option.some.injEq] at hz; subst hz; rename_i h2 _ _ _; exact absurd (h.inj _ _ _ ha hp) h2
        · exact h.inj _ _ _ ha hz
  · intro b
    simp only [W.set]
    constructor
    · rintro ⟨z, hz⟩
      by_cases hzy : z = y
      · subst hzy; rw [hp] at hz; exact ⟨x, by simp [Ne.symm hne, hz]⟩
      · exact ⟨z, by rw [if_neg hzy, if_neg]; · exact hz
                     rintro rfl; rw [hx] at hz; cases hz⟩
    · rintro ⟨z, hz⟩
      split at hz
      · cases hz
      · split at hz
        · exact ⟨y, by rw [hp, hz]⟩
        · exact ⟨z, hz⟩
  · funext z; simp only [cv, updv, W.set]
    split
    · rfl
    · split
      · rw [hp]
      · rfl

theorem swap_spec {w : W α} (h : Inv w) {x y : Var} (hx : cv w x ≠ none) (hy : cv w y ≠ none) :
    Ok (swap x y) w (updv (updv (cv w) x (cv w y)) y (cv w x)) := by
  obtain ⟨p, hp⟩ := Option.ne_none_iff_exists'.1 (mt cv_none.2 hx)
  obtain ⟨q, hq⟩ := Option.ne_none_iff_exists'.1 (mt cv_none.2 hy)
  apply Ok.noexcept
  have hv : ∀ z, ((w.set x (some q)).set y (some p)).vars z = w.vars (if z = y then x else if z = x then y else z) := by
    intro z; simp only [W.set]; split
    · exact hp.symm
    · split
      · exact hq.symm
      · rfl
  refine ⟨(w.set x (some q)).set y (some p), ?_, ?_, ?_⟩
  · by_cases hxy : y = x
    · subst hxy
      obtain rfl : p = q := by rw [hp] at hq; exact Option.some.inj hq
      simp [bind_eq, M.bind, content, hp, setContent, W.set]
    · simp [bind_eq, M.bind, content, hp, hq, setContent, W.set, hxy]
  · refine h.vars (g := ((w.set x (some q)).set y (some p)).vars) ?_ ?_
    · intro a z b ha hz
      rw [hv] at ha hz
      have := h.inj _ _ _ ha hz
      split_ifs at this <;> simp_all
    · intro b
      constructor
      · rintro ⟨z, hz⟩
        refine ⟨if z = y then x else if z = x then y else z, ?_⟩
        rw [hv]
        have : (if (if z = y then x else if z = x then y else z) = y then x else if (if z = y then x else if z = x then y else z) = x then y else
            (if z = y then x else if z = x then y else z)) = z := by split_ifs <;> simp_all
        rw [this]; exact hz
      · rintro ⟨z, hz⟩; rw [hv] at hz; exact ⟨_, hz⟩
  · funext z; simp only [cv, updv, W.set]
    split
    · simp [hp]
    · split
      · simp [hq]
      · rfl

theorem reset_spec {w : W α} (h : Inv w) {x : Var} (hx : cv w x ≠ none) : Ok (reset x) w (updv (cv w) x (some none)) := by
  obtain ⟨p, hp⟩ := Option.ne_none_iff_exists'.1 (mt cv_none.2 hx)
  apply Ok.noexcept
  cases p with
  | none =>
    refine ⟨w, ?_, h, ?_⟩
    · simp only [bind_eq, M.bind, content, hp, del, pure_eq, M.pure, setContent]
      congr 1
      cases w; simp only [W.set, W.mk.injEq, and_true]
      funext y; split
      · subst y; exact hp.symm
      · rfl
    · funext y; simp only [updv]; split
      · subst y; simp [cv, hp]
      · rfl
  | some b =>
    obtain ⟨v, hv⟩ := h.cell hp
    obtain ⟨a1, a2⟩ := h.free hp (some none) (.inr rfl)
    exact ⟨_, by simp only [bind_eq, M.bind, content, hp, del, hv, setContent]; rfl, a1, a2⟩

theorem updv_updv (f : CV α) (x : Var) (a b) : updv (updv f x a) x b = updv f x b := by
  funext y; simp only [updv]; split <;> rfl

theorem dtor_spec {w : W α} (h : Inv w) {x : Var} (hx : cv w x ≠ none) : Ok (dtor x) w (updv (cv w) x none) := by
  refine Ok.seq (reset_spec h hx) ?_
  intro w' i' c'
  have hn : w'.vars x = some none := by
    have := congrFun c' x
    simp only [cv, updv, if_true] at this
    cases hv : w'.vars x with
    | none => simp [hv] at this
    | some p =>
      cases p with
      | none => rfl
      | some b => obtain ⟨v, hh⟩ := i'.cell hv; simp [hv, hh] at this
  refine ⟨w'.set x none, rfl, i'.vars ?_ ?_, ?_⟩
  · intro y z b hy hz
    split at hy
    · cases hy
    · split at hz
      · cases hz
      · exact i'.inj _ _ _ hy hz
  · intro b
    constructor
    · rintro ⟨y, hy⟩
      refine ⟨y, ?_⟩
      rw [if_neg]; · exact hy
      rintro rfl; rw [hn] at hy; cases hy
    · rintro ⟨y, hy⟩
      split at hy
      · cases hy
      · exact ⟨y, hy⟩
  · rw [← updv_updv (cv w) x (some none) none, ← c']
    funext y; simp only [cv, updv, W.set]; split <;> rfl

/-! ### Commands. Between commands there are no temporaries. -/

def NoTmp (f : CV α) : Prop := f .obj = none ∧ ∀ n, f (.tmp n) = none

theorem assignMove_spec {w : W α} (h : Inv w) {x y : Var} (h0 : cv w (.tmp 0) = none) (hx : cv w x ≠ none) (hy : cv w y ≠ none) :
    Ok (assignMove x y) w (updv (updv (cv w) y (some none)) x (cv w y)) := by
  have nx : x ≠ .tmp 0 := by rintro rfl; exact hx h0
  have ny : y ≠ .tmp 0 := by rintro rfl; exact hy h0
  apply Ok.noexcept
  refine Ok.seq (ctorMove_spec h h0 hy) ?_
  intro w1 i1 c1
  refine Ok.fin (swap_spec i1 (by rw [c1]; simp [updv, Ne.symm ny]; exact hy) (by rw [c1]; simp only [updv]; split <;> simp [hx])) ?_
  intro w2 i2 c2
  have := dtor_spec i2 (x := .tmp 0) (by rw [c2, c1]; simp only [updv, Ne.symm nx, Ne.symm ny, if_false, if_true]; split <;> simp [hx])
  convert this using 1
  rw [c2, c1]
  funext z
  simp only [updv]
  split_ifs <;> simp_all

theorem assignCopy_spec (c : Cls α) {w : W α} (h : Inv w) {x y : Var} (h0 : cv w (.tmp 0) = none) (hx : cv w x ≠ none) (hy : cv w y ≠ none) :
    Ok (assignCopy c x y) w (updv (cv w) x (cv w y)) ∨ Exc c (assignCopy c x y) w := by
  have nx : x ≠ .tmp 0 := by rintro rfl; exact hx h0
  have ny : y ≠ .tmp 0 := by rintro rfl; exact hy h0
  rcases ctorCopy_spec c h h0 hy with hc | ⟨ht, w', e, i, r⟩
  · left
    refine Ok.seq hc ?_
    intro w1 i1 c1
    refine Ok.fin (swap_spec i1 (by rw [c1]; simp [updv]; exact hy) (by rw [c1]; simp only [updv, nx, if_false]; exact hx)) ?_
    intro w2 i2 c2
    have := dtor_spec i2 (x := .tmp 0) (by rw [c2, c1]; simp only [updv, Ne.symm nx, nx, if_false, if_true]; exact hx)
    convert this using 1
    rw [c2, c1]
    funext z
    simp only [updv]
    split_ifs <;> simp_all
  · right
    exact ⟨ht, w', by simp only [assignCopy, bind_eq, M.bind, e], i, r⟩

theorem ctorValue_spec (c : Cls α) {w : W α} (h : Inv w) {x : Var} (hx : cv w x = none) (m : Bool) (v : Nat × α) :
    Ok (ctorValue c x m v) w (updv (cv w) x (some (some v))) ∨ Term c (ctorValue c x m v) w := by
  rcases new_declare c h hx m v with hc | ⟨ht, w', e, -⟩
  · exact .inl hc.noexcept
  · exact .inr ⟨ht, by simp only [ctorValue, M.noexcept, e]⟩

theorem assignValue_spec (c : Cls α) {w : W α} (h : Inv w) {x : Var} (h0 : cv w (.tmp 0) = none) (h1 : cv w (.tmp 1) = none) (hx : cv w x ≠ none)
    (m : Bool) (v : Nat × α) : Ok (assignValue c x m v) w (updv (cv w) x (some (some v))) ∨ Term c (assignValue c x m v) w := by
  have nx : x ≠ .tmp 1 := by rintro rfl; exact hx h1
  rcases ctorValue_spec c h h1 m v with hc | ⟨ht, e⟩
  · left
    refine Ok.seq hc ?_
    intro w1 i1 c1
    refine Ok.fin (assignMove_spec i1 (by rw [c1]; simp [updv]; exact h0) (by rw [c1]; simp only [updv, nx, if_false]; exact hx)
      (by rw [c1]; simp [updv])) ?_
    intro w2 i2 c2
    have := dtor_spec i2 (x := .tmp 1) (by rw [c2, c1]; simp [updv, Ne.symm nx])
    convert this using 1
    rw [c2, c1]
    funext z
    simp only [updv]
    split_ifs <;> simp_all
  · right
    exact ⟨ht, by simp only [assignValue, bind_eq, M.bind, e]⟩

theorem mkObj_spec (c : Cls α) {w : W α} (h : Inv w) (ho : cv w .obj = none) (v : Nat × α) :
    Ok (mkObj c v) w (updv (cv w) .obj (some (some v))) ∨ Exc c (mkObj c v) w := by
  by_cases ht : c.throws w.calls = true
  · exact .inr ⟨⟨_, ht⟩, { w with calls := w.calls + 1 }, by simp only [mkObj, bind_eq, M.bind, call, ht, if_true], h.calls _, rfl⟩
  · left
    obtain ⟨w', e, i, r⟩ := ok_place_declare h ho v (w.calls + 1)
    refine ⟨w', ?_, i, r⟩
    simp only [mkObj, bind_eq, M.bind, call, ht] at e ⊢
    exact e

theorem fromObj_spec (c : Cls α) {w : W α} (h : Inv w) {x : Var} {v : Nat × α} (hx : cv w x = none) (ho : cv w .obj = some (some v)) :
    Ok (do let q ← holderFromObj c; declare x (some q)) w (updv (updv (cv w) x (some (some v))) .obj (some (some (v.1, c.moved v.1 v.2)))) ∨
    Exc c (do let q ← holderFromObj c; declare x (some q)) w := by
  obtain ⟨p, hp⟩ : ∃ p, w.vars .obj = some p := by
    cases hv : w.vars .obj with
    | none => simp [cv, hv] at ho
    | some p => exact ⟨p, rfl⟩
  cases p with
  | none => simp [cv, hp] at ho
  | some b =>
    have hb : w.heap b = some v := by simpa [cv, hp] using ho
    have nx : x ≠ .obj := by rintro rfl; rw [hx] at ho; cases ho
    rcases newHolder_eq c true v w with ⟨n, e⟩ | ⟨ht, n, e⟩
    · left
      have hx' := cv_none.1 hx
      obtain ⟨a1, a2⟩ := h.new hx' v n
      have hbn : b ≠ w.next := by rintro rfl; exact h.fresh.2 _ hp
      obtain ⟨b1, b2⟩ := a1.wr (x := .obj) (b := b) (by simp [Ne.symm nx, hp]) (v.1, c.moved v.1 v.2)
      refine ⟨_, ?_, b1, by rw [b2, a2]⟩
      simp only [holderFromObj, bind_eq, M.bind, content, hp, deref, hb, e, place, write, pure_eq, M.pure, declare, hx', if_neg hbn, W.set]
    · right
      refine ⟨ht, _, ?_, h.calls n, rfl⟩
      simp only [holderFromObj, bind_eq, M.bind, content, hp, deref, hb, e]

theorem ctorInPlace_spec (c : Cls α) {w : W α} (h : Inv w) {x : Var} (ho : cv w .obj = none) (hx : cv w x = none) (nx : x ≠ .obj) (v : Nat × α) :
    Ok (ctorInPlace c x v) w (updv (cv w) x (some (some v))) ∨ Exc c (ctorInPlace c x v) w := by
  rcases mkObj_spec c h ho v with ⟨w1, e1, i1, c1⟩ | ⟨ht, w', e, i, r⟩
  · rcases fromObj_spec c i1 (x := x) (v := v) (by rw [c1]; simp only [updv, nx, if_false]; exact hx) (by rw [c1]; simp [updv]) with hc | ⟨ht, w2, e2, i2, c2⟩
    · left
      obtain ⟨w3, e3, i3, c3⟩ := Ok.fin (d := dtor .obj) hc (g := updv (cv w) x (some (some v))) (by
        intro w2 i2 c2
        have := dtor_spec i2 (x := .obj) (by rw [c2]; simp [updv])
        convert this using 1
        rw [c2, c1]
        funext z
        simp only [updv]
        split_ifs <;> simp_all)
      exact ⟨w3, by simp only [ctorInPlace, bind_eq, M.bind, e1]; simp only [bind_eq] at e3; exact e3, i3, c3⟩
    · right
      obtain ⟨w3, e3, i3, c3⟩ := dtor_spec i2 (x := .obj) (by rw [c2, c1]; simp [updv])
      refine ⟨ht, w3, ?_, i3, ?_⟩
      · simp only [ctorInPlace, bind_eq, M.bind, e1, M.finally_]
        simp only [bind_eq, M.bind] at e2
        rw [e2]; simp only [e3]
      · rw [c3, c2, c1, updv_updv]
        funext z; simp only [updv]; split
        · subst z; exact ho.symm
        · rfl
  · exact .inr ⟨ht, w', by simp only [ctorInPlace, bind_eq, M.bind, e], i, r⟩

theorem emplace_spec (c : Cls α) {w : W α} (h : Inv w) {x : Var} (hn : NoTmp (cv w)) (hx : cv w x ≠ none) (v : Nat × α) :
    Ok (emplace c x v) w (updv (cv w) x (some (some v))) ∨ Exc c (emplace c x v) w ∨ Term c (emplace c x v) w := by
  have nx : x ≠ .obj := by rintro rfl; exact hx hn.1
  have nx0 : x ≠ .tmp 0 := by rintro rfl; exact hx (hn.2 0)
  rcases mkObj_spec c h hn.1 v with ⟨w1, e1, i1, c1⟩ | ⟨ht, w', e, i, r⟩
  · rcases fromObj_spec c i1 (x := .tmp 0) (v := v) (by rw [c1]; simp [updv, hn.2]) (by rw [c1]; simp [updv]) with hc | ⟨ht, w2, e2, i2, c2⟩
    · left
      obtain ⟨w3, e3, i3, c3⟩ := Ok.fin (d := dtor .obj) (g := updv (cv w) x (some (some v))) (Ok.seq (k := fun _ => M.finally_ (swap (.tmp 0) x) (dtor (.tmp 0)))
        (g := updv (updv (cv w) x (some (some v))) .obj (some (some (v.1, c.moved v.1 v.2)))) hc.noexcept (by
          intro w2 i2 c2
          refine Ok.fin (swap_spec i2 (by rw [c2]; simp [updv]) (by rw [c2, c1]; simp only [updv, nx, nx0, if_false]; exact hx)) ?_
          intro w3 i3 c3
          have := dtor_spec i3 (x := .tmp 0) (by rw [c3, c2, c1]; simp only [updv, Ne.symm nx0, nx, nx0, if_false, if_true]; exact hx)
          convert this using 1
          rw [c3, c2, c1]
          have := hn.2 0
          funext z
          simp only [updv]
          split_ifs <;> simp_all)) (by
        intro w2 i2 c2
        have := dtor_spec i2 (x := .obj) (by rw [c2]; simp [updv])
        convert this using 1
        rw [c2]
        have := hn.1
        funext z
        simp only [updv]
        split_ifs <;> simp_all)
      refine ⟨w3, ?_, i3, c3⟩
      simp only [emplace, bind_eq, M.bind, e1]
      simp only [bind_eq] at e3
      exact e3
    · right; right
      refine ⟨ht, ?_⟩
      simp only [bind_eq, M.bind] at e2
      simp only [emplace, bind_eq, M.bind, e1, M.finally_, M.noexcept, e2]
  · exact .inr (.inl ⟨ht, w', by simp only [emplace, bind_eq, M.bind, e], i, r⟩)

theorem cont_of {w w' : W α} {i : Nat} {o} (h : cv w' = updv (cv w) (.user i) o) : cont w' = upd (cont w) i o := by
  funext j
  have := congrFun h (.user j)
  simpa [cv, updv, cont, upd] using this

theorem noTmp_upd {f : CV α} (h : NoTmp f) (i : Nat) (o) : NoTmp (updv f (.user i) o) := by
  simpa [NoTmp, updv] using h

/-- Every legal command does what the specification says, or throws and changes nothing, or ends the program. -/
theorem good_step (c : Cls α) {w : W α} (h : Inv w) (hn : NoTmp (cv w)) {k : Cmd α} (hk : Legal (cont w) k) :
    (∃ w', step c k w = .ok w' () ∧ (Inv w' ∧ NoTmp (cv w')) ∧ cont w' = Spec.step (cont w) k) ∨
    (lets k ∧ (∃ n, c.throws n = true) ∧ ∃ w', step c k w = .exc w' ∧ (Inv w' ∧ NoTmp (cv w')) ∧ cont w' = cont w) ∨
    (inside k ∧ (∃ n, c.throws n = true) ∧ step c k w = .term) := by
  have fin1 : ∀ {m : M α Unit} {i o}, Ok m w (updv (cv w) (.user i) o) → ∃ w', m w = .ok w' () ∧ (Inv w' ∧ NoTmp (cv w')) ∧ cont w' = upd (cont w) i o := by
    rintro m i o ⟨w', e, i', r⟩
    exact ⟨w', e, ⟨i', by rw [r]; exact noTmp_upd hn i o⟩, cont_of r⟩
  have fin2 : ∀ {m : M α Unit} {i j o p}, Ok m w (updv (updv (cv w) (.user i) o) (.user j) p) →
      ∃ w', m w = .ok w' () ∧ (Inv w' ∧ NoTmp (cv w')) ∧ cont w' = upd (upd (cont w) i o) j p := by
    rintro m i j o p ⟨w', e, i', r⟩
    refine ⟨w', e, ⟨i', by rw [r]; exact noTmp_upd (noTmp_upd hn i o) j p⟩, ?_⟩
    funext l
    have := congrFun r (.user l)
    simpa [cv, updv, cont, upd] using this
  have finE : ∀ {m : M α Unit}, Exc c m w → (∃ n, c.throws n = true) ∧ ∃ w', m w = .exc w' ∧ (Inv w' ∧ NoTmp (cv w')) ∧ cont w' = cont w := by
    rintro m ⟨ht, w', e, i', r⟩
    refine ⟨ht, w', e, ⟨i', by rw [r]; exact hn⟩, ?_⟩
    funext l
    exact congrFun r (.user l)
  cases k with
  | empty i => exact .inl (fin1 (ok_declare_none h hk).noexcept)
  | ofValue i m v =>
    rcases ctorValue_spec c h (x := .user i) hk m v with h1 | h1
    · exact .inl (fin1 h1)
    · exact .inr (.inr ⟨trivial, h1⟩)
  | inPlace i v =>
    rcases ctorInPlace_spec c h (x := .user i) hn.1 hk (by simp) v with h1 | h1
    · exact .inl (fin1 h1)
    · exact .inr (.inl ⟨trivial, finE h1⟩)
  | copy i j =>
    rcases ctorCopy_spec c h (x := .user i) (y := .user j) hk.1 hk.2 with h1 | h1
    · exact .inl (fin1 h1)
    · exact .inr (.inl ⟨trivial, finE h1⟩)
  | move i j => exact .inl (fin2 (ctorMove_spec h (x := .user i) (y := .user j) hk.1 hk.2))
  | assignCopy i j =>
    rcases assignCopy_spec c h (x := .user i) (y := .user j) (hn.2 0) hk.1 hk.2 with h1 | h1
    · exact .inl (fin1 h1)
    · exact .inr (.inl ⟨trivial, finE h1⟩)
  | assignMove i j => exact .inl (fin2 (assignMove_spec h (x := .user i) (y := .user j) (hn.2 0) hk.1 hk.2))
  | assignValue i m v =>
    rcases assignValue_spec c h (x := .user i) (hn.2 0) (hn.2 1) hk m v with h1 | h1
    · exact .inl (fin1 h1)
    · exact .inr (.inr ⟨trivial, h1⟩)
  | emplace i v =>
    rcases emplace_spec c h (x := .user i) hn hk v with h1 | h1 | h1
    · exact .inl (fin1 h1)
    · exact .inr (.inl ⟨trivial, finE h1⟩)
    · exact .inr (.inr ⟨trivial, h1⟩)
  | reset i => exact .inl (fin1 (reset_spec h (x := .user i) hk))
  | swap i j => exact .inl (fin2 (swap_spec h (x := .user i) (y := .user j) hk.1 hk.2))
  | destroy i => exact .inl (fin1 (dtor_spec h (x := .user i) hk))

theorem inv_run (c : Cls α) {w : W α} (h : Inv w) (hn : NoTmp (cv w)) (ks : List (Cmd α)) (hl : LegalRun c w ks) :
    run c w ks ≠ .inl false ∧ ∀ w' ts, run c w ks = .inr (w', ts) → Inv w' ∧ NoTmp (cv w') := by
  induction ks generalizing w with
  | nil => exact ⟨by simp [run], by intro w' ts e; simp only [run, Sum.inr.injEq, Prod.mk.injEq] at e; rw [← e.1]; exact ⟨h, hn⟩⟩
  | cons k ks ih =>
    obtain ⟨hk, hr⟩ := hl
    rcases good_step c h hn hk with ⟨w1, e, ⟨i1, n1⟩, -⟩ | ⟨-, -, w1, e, ⟨i1, n1⟩, -⟩ | ⟨-, -, e⟩
    · rw [e] at hr
      obtain ⟨a, b⟩ := ih i1 n1 hr
      simp only [run, e]
      cases hrun : run c w1 ks with
      | inl x => exact ⟨by intro hc; simp only [Sum.inl.injEq] at hc; subst hc; exact a hrun, by intro w' ts hc; cases hc⟩
      | inr p => exact ⟨by simp, by intro w' ts hc; simp only [Sum.inr.injEq, Prod.mk.injEq] at hc; rw [← hc.1]; exact b p.1 p.2 hrun⟩
    · rw [e] at hr
      obtain ⟨a, b⟩ := ih i1 n1 hr
      simp only [run, e]
      cases hrun : run c w1 ks with
      | inl x => exact ⟨by intro hc; simp only [Sum.inl.injEq] at hc; subst hc; exact a hrun, by intro w' ts hc; cases hc⟩
      | inr p => exact ⟨by simp, by intro w' ts hc; simp only [Sum.inr.injEq, Prod.mk.injEq] at hc; rw [← hc.1]; exact b p.1 p.2 hrun⟩
    · simp only [run, e]
      exact ⟨by simp, by intro w' ts hc; cases hc⟩

theorem noTmp_init : NoTmp (cv (init : W α)) := ⟨rfl, fun _ => rfl⟩

end Nanostl.Any
