import Verif.Variant.Visit
import Verif.Variant.Props

/-! C81: `visit` calls the visitor with the contained values. -/

namespace Nanostl.Variant

variable {α γ : Type}

open Spec

variable {β : Type} {Q : β → AV α → Prop} {E : AV α → Prop} {T : Prop} {a : AV α}

theorem awp_scope {m : M α β} {d : M α Unit} (h : awp m (fun b => awp d (fun _ => Q b) E T) (awp d (fun _ => E) E T) T a) : awp (M.scope m d) Q E T a := by
  intro w hw
  have h1 := h w hw
  simp only [M.scope]
  cases e : m w with
  | ok w' b =>
    simp only [e] at h1 ⊢
    have h2 := h1 w' rfl
    cases e2 : d w' <;> simp only [e2] at h2 ⊢ <;> assumption
  | exc w' =>
    simp only [e] at h1 ⊢
    have h2 := h1 w' rfl
    cases e2 : d w' <;> simp only [e2] at h2 ⊢ <;> assumption
  | term => simp only [e] at h1 ⊢; exact h1
  | bad => simp only [e] at h1

theorem awp_apply1 {c : Cls α} (hn : c.n ≤ 16) {v : Fn α β} {x : Var} {o : Option (Val α)} (hx : a x = some (enc o)) (ho : InAlt c o) (ht : o = none → T)
    (h : ∀ u, o = some u → awp (v [u]) Q E T a) : awp (apply1 c v x) Q E T a := by
  refine awp_bind (awp_index hx ?_)
  cases o with
  | none => intro w hw; exact ht rfl
  | some u =>
    have h1 : u.1 < c.n := ho u rfl
    have h2 : u.1 < 16 := by omega
    simp only [Option.map_some]
    refine ite_pos h2 (ite_pos h1 (awp_bind (awp_bind (awp_index hx (ite_pos ?_ (awp_readObj (v := u.2) hx (h u rfl)))))))
    simp [indexOfSize, indexOf, h1]

/-- The state with the copies. -/
def fill (a : AV α) : Nat → List (Option (Val α)) → AV α
  | _, [] => a
  | b, o :: os => fill (updv a (.user b) (some (enc o))) (b + 1) os

theorem fill_other (a : AV α) (b : Nat) (os : List (Option (Val α))) (x : Var) (h : ∀ l, l < os.length → x ≠ .user (b + l)) : fill a b os x = a x := by
  induction os generalizing a b with
  | nil => rfl
  | cons o os ih =>
    rw [fill, ih _ _ fun l hl => ?_, updv_ne _ _ (by simpa using h 0 (by simp))]
    have := h (l + 1) (by simpa using hl)
    rwa [show b + (l + 1) = b + 1 + l by omega] at this

theorem fill_temps (a : AV α) (b : Nat) (os : List (Option (Val α))) : (temps b os.length).map (fill a b os) = os.map fun o => some (enc o) := by
  induction os generalizing a b with
  | nil => rfl
  | cons o os ih =>
    simp only [temps, List.length_cons, List.range'_succ, List.map_cons, List.cons.injEq]
    refine ⟨?_, ?_⟩
    · rw [fill, fill_other _ _ _ _ (by intro l _ h; simp at h; omega), updv_same]
    · exact ih _ _

theorem awp_copyIn {c : Cls α} (hn : c.n ≤ 16) {m : M α β} {R : β → Prop} {X : Prop} (ys : List Var) (b : Nat) (os : List (Option (Val α)))
    (hy : ys.map a = os.map fun o => some (enc o)) (ho : ∀ o ∈ os, InAlt c o) (hb : ∀ l, a (.user (b + l)) = none) (hX : ys ≠ [] → Thr c → X)
    (h : awp m (fun r a' => a' = fill a b os ∧ R r) (fun a' => a' = fill a b os ∧ X) T (fill a b os)) :
    awp (copyIn c ys b m) (fun r a' => a' = a ∧ R r) (fun a' => a' = a ∧ X) T a := by
  induction ys generalizing a b os with
  | nil =>
    cases os with
    | nil => exact h
    | cons o os => simp at hy
  | cons y ys ih =>
    cases os with
    | nil => simp at hy
    | cons o os =>
      simp only [List.map_cons, List.cons.injEq] at hy
      have hX' : Thr c → X := hX (by simp)
      have hb0 : a (.user b) = none := hb 0
      have ho0 := ho o (by simp)
      have hyb : ∀ z, z ∈ y :: ys → z ≠ .user b := by
        intro z hz e
        have : a z ∈ (y :: ys).map a := List.mem_map_of_mem hz
        rw [List.map_cons, hy.1, hy.2, e, hb0] at this
        simp at this
      refine awp_bind (awp_ctorCopy hn hy.1 ho0 hb0 (awp_scope ?_) fun ht => ⟨rfl, hX' ht⟩)
      refine awp_mono (ih (a := updv a (.user b) (some (enc o))) (b + 1) os ?_ (fun o ho' => ho o (by simp [ho'])) ?_ (fun _ => hX') h) ?_ ?_ id
      · rw [← hy.2]
        refine List.map_congr_left fun z hz => updv_ne _ _ (hyb z (by simp [hz]))
      · intro l
        rw [updv_ne _ _ (by simp; omega), Nat.add_assoc]; exact hb _
      · rintro r a' ⟨rfl, hr⟩
        refine awp_dtor hn (updv_same _ _ _) ho0 ⟨?_, hr⟩
        rw [updv_updv, updv_self _ _ _ hb0]
      · rintro a' ⟨rfl, hr⟩
        refine awp_dtor hn (updv_same _ _ _) ho0 ⟨?_, hr⟩
        rw [updv_updv, updv_self _ _ _ hb0]

theorem awp_apply {c : Cls α} (hn : c.n ≤ 16) {v : Fn α β} {R : β → Prop} {X : Prop} (n : Nat) (x : Var) (ys : List Var) (b : Nat) (o : Option (Val α))
    (os : List (Option (Val α))) (hl : ys.length = n) (h4 : ys.length ≤ 4) (hx : a x = some (enc o)) (hy : ys.map a = os.map fun o => some (enc o))
    (ho : ∀ p ∈ o :: os, InAlt c p) (hb : ∀ l, a (.user (b + l)) = none) (hT : none ∈ o :: os → T) (hX : 1 < ys.length → Thr c → X)
    (h : ∀ vals, o :: os = vals.map some → ∀ a', (∀ y, (∀ l, y ≠ .user (b + l)) → a' y = a y) →
      awp (v vals) (fun r a'' => a'' = a' ∧ R r) (fun a'' => a'' = a' ∧ X) T a') :
    awp (apply c v x ys b) (fun r a' => a' = a ∧ R r) (fun a' => a' = a ∧ X) T a := by
  induction n generalizing v x ys b o os a with
  | zero =>
    cases ys with
    | cons _ _ => simp at hl
    | nil =>
      cases os with
      | cons _ _ => simp at hy
      | nil =>
        rw [apply]
        refine awp_apply1 hn hx (ho o (by simp)) (fun e => hT (by simp [e])) ?_
        rintro u rfl
        exact h [u] rfl a fun _ _ => rfl
  | succ n ih =>
    cases ys with
    | nil => simp at hl
    | cons y ys =>
      cases os with
      | nil => simp at hy
      | cons p os =>
        simp only [List.map_cons, List.cons.injEq] at hy
        simp only [List.length_cons] at hl h4 hX
        have hlen : ys.length = os.length := by simpa using congrArg List.length hy.2
        have hnt : ∀ z, z ∈ x :: y :: ys → ∀ l, z ≠ .user (b + l) := by
          intro z hz l e
          have : a z ∈ (x :: y :: ys).map a := List.mem_map_of_mem hz
          rw [List.map_cons, List.map_cons, hy.1, hy.2, hx, e, hb] at this
          simp at this
        rw [apply]
        refine awp_copyIn hn ys b os hy.2 (fun o h => ho o (by simp [h])) hb (fun hne => hX (by have := List.length_pos_iff.2 hne; omega)) ?_
        refine ih y (temps b ys.length) (b + ys.length) p os ?_ ?_ ?_ ?_ (fun q hq => ho q (by simp only [List.mem_cons] at hq ⊢; tauto)) ?_
          (fun hm => hT (List.mem_cons_of_mem _ hm)) ?_ ?_
        · simp [temps]; omega
        · simp [temps]; omega
        · rw [fill_other _ _ _ _ fun l _ => hnt y (by simp) l]; exact hy.1
        · rw [hlen]; exact fill_temps a b os
        · intro l
          rw [fill_other _ _ _ _ (by intro l' h' e; simp at e; omega), Nat.add_assoc]; exact hb _
        · intro hl'; exact hX (by simp [temps] at hl'; omega)
        · intro vals hv a' ha'
          have hax : ∀ y, (∀ l, y ≠ .user (b + l)) → a' y = a y := by
            intro z hz
            rw [ha' z fun l => by rw [Nat.add_assoc]; exact hz _, fill_other _ _ _ _ fun l _ => hz l]
          refine awp_apply1 hn (by rw [hax x (hnt x (by simp))]; exact hx) (ho o (by simp)) (fun e => hT (by simp [e])) ?_
          rintro u rfl
          have hvl : vals.length ≤ 4 := by
            have := congrArg List.length hv
            simp at this; omega
          refine ite_pos hvl ?_
          exact h (u :: vals) (by simp [hv]) a' hax

/-- The visitor leaves the variants alone; with arguments `l` it returns one of the results `R l`, throws only if `X l`, ends the program only if
`Tm l`. -/
def Visitor (v : Fn α γ) (R : List (Val α) → γ → Prop) (X Tm : List (Val α) → Prop) : Prop := ∀ l w, match v l w with
  | .ok w' r => w' = w ∧ R l r
  | .exc w' => w' = w ∧ X l
  | .term => Tm l
  | .bad => False

theorem pres_scope {m : M α γ} {d : M α Unit} (hm : Pres m) (hd : Pres d) : Pres (M.scope m d) := by
  refine .of fun w hw => ?_
  have h1 := hm.run w hw
  simp only [M.scope]
  cases e : m w with
  | ok w' b =>
    simp only [e] at h1 ⊢
    have h2 := hd.run w' h1
    cases e2 : d w' <;> simp only [e2] at h2 ⊢ <;> assumption
  | exc w' =>
    simp only [e] at h1 ⊢
    have h2 := hd.run w' h1
    cases e2 : d w' <;> simp only [e2] at h2 ⊢ <;> assumption
  | term => trivial
  | bad => trivial

theorem pres_term : Pres (terminate : M α γ) := .of fun _ _ => trivial

theorem pres_ctorCopy (c : Cls α) (x y : Var) : Pres (ctorCopy c x y) :=
  (Pres.slot y).bind fun _ => pres_ctor _ _ ((pres_copyConstruct c _ _ _).bind fun _ => Pres.pure _)

theorem pres_apply1 (c : Cls α) {v : Fn α γ} (hv : ∀ l, Pres (v l)) (x : Var) : Pres (apply1 c v x) := by
  refine (pres_index x).bind fun i => ?_
  cases i with
  | none => exact pres_term
  | some k =>
    simp only
    split
    · split
      · refine Pres.bind ((pres_index x).bind fun i => ?_) fun u => hv _
        split
        · exact Pres.readObj _ _
        · exact Pres.bad
      · exact pres_term
    · exact pres_term

theorem pres_copyIn (c : Cls α) {m : M α γ} (hm : Pres m) (ys : List Var) (b : Nat) : Pres (copyIn c ys b m) := by
  induction ys generalizing b with
  | nil => exact hm
  | cons y ys ih => exact (pres_ctorCopy c _ _).bind fun _ => pres_scope (ih _) (pres_dtor _)

theorem pres_apply (c : Cls α) (n : Nat) {v : Fn α γ} (hv : ∀ l, Pres (v l)) (x : Var) (ys : List Var) (hl : ys.length = n) (b : Nat) : Pres (apply c v x ys b) := by
  induction n generalizing v x ys b with
  | zero =>
    cases ys with
    | nil => rw [apply]; exact pres_apply1 c hv x
    | cons _ _ => simp at hl
  | succ n ih =>
    cases ys with
    | nil => simp at hl
    | cons y ys =>
      rw [apply]
      refine pres_copyIn c (ih (fun l => pres_apply1 c (fun l' => ?_) _) _ _ (by simp [temps]; simpa using hl) _) _ _
      simp only [typed]
      split
      · split
        · exact hv _
        · exact Pres.bad
      · exact Pres.bad

/-- In a state reached by any history, `visit` of one to five variants calls the visitor with the values they contain, in their order, and gives its
result or its exception; it ends the program if a variant is valueless. With three variants or more an exception of a copy may come instead. All
variables are as before and no object is left. (`b`: numbers not in use.) -/
theorem c81_visit (c : Cls α) (hn : c.n ≤ 16) (h0 : 0 < c.n) (ks : List (Cmd α)) (h : LegalRun c init ks) (w : W α) (ts : List Bool)
    (e : run c init ks = .inr (w, ts)) (v : Fn α γ) (R : List (Val α) → γ → Prop) (X Tm : List (Val α) → Prop) (hv : Visitor v R X Tm)
    (xs : List Nat) (hx0 : xs ≠ []) (hx5 : xs.length ≤ 5) (os : List (Option (Val α))) (hos : xs.map (cont w) = os.map some)
    (b : Nat) (hb : ∀ l, cont w (b + l) = none) :
    match visit c v (xs.map .user) b w with
    | .ok w' r => cont w' = cont w ∧ Good c w' ∧ ∃ vals, os = vals.map some ∧ R vals r
    | .exc w' => cont w' = cont w ∧ Good c w' ∧ ((∃ vals, os = vals.map some ∧ X vals) ∨ (3 ≤ xs.length ∧ ∃ n, c.throws n = true))
    | .term => none ∈ os ∨ ∃ vals, os = vals.map some ∧ Tm vals
    | .bad => False := by
  have hg := (good_run hn h0 (good_init c) ks h).2 w ts e
  have hp : ∀ l, Pres (v l) := by
    intro l
    refine .of fun w hw => ?_
    have := hv l w
    cases e : v l w with
    | ok w' r => simp only [e] at this ⊢; rw [this.1]; exact hw
    | exc w' => simp only [e] at this ⊢; rw [this.1]; exact hw
    | term => trivial
    | bad => trivial
  cases xs with
  | nil => exact absurd rfl hx0
  | cons x xs =>
    cases os with
    | nil => simp at hos
    | cons o os =>
      simp only [List.map_cons, List.cons.injEq] at hos
      have hin : ∀ p ∈ o :: os, InAlt c p := by
        intro p hp'
        have : some p ∈ (x :: xs).map (cont w) := by
          rw [List.map_cons, hos.1, hos.2, ← List.map_cons]; exact List.mem_map_of_mem hp'
        obtain ⟨i, -, hi⟩ := List.mem_map.1 this
        exact hg.ok i p hi
      have key := awp_apply (a := emb (cont w)) hn (v := v) (R := fun r => ∃ vals, o :: os = vals.map some ∧ R vals r)
        (X := (∃ vals, o :: os = vals.map some ∧ X vals) ∨ (3 ≤ (x :: xs).length ∧ Thr c))
        (T := none ∈ o :: os ∨ ∃ vals, o :: os = vals.map some ∧ Tm vals) xs.length (.user x) (xs.map .user) b o os (by simp) (by simpa using hx5)
        (by simp [emb, hos.1]) (by
          rw [List.map_map]
          have : (emb (cont w) ∘ Var.user) = Option.map enc ∘ cont w := rfl
          rw [this, ← List.map_map (f := cont w) (g := Option.map enc), hos.2, List.map_map]; rfl)
        hin (by intro l; simp [emb, hb]) .inl (by
          intro hl ht
          exact .inr ⟨by simp at hl ⊢; omega, ht⟩) (by
          intro vals hvals a' _ w1 hw1
          have := hv vals w1
          cases e1 : v vals w1 with
          | ok w' r => simp only [e1] at this ⊢; exact ⟨by rw [this.1, hw1], vals, hvals, this.2⟩
          | exc w' => simp only [e1] at this ⊢; exact ⟨by rw [this.1, hw1], .inl ⟨vals, hvals, this.2⟩⟩
          | term => simp only [e1] at this ⊢; exact .inr ⟨vals, hvals, this⟩
          | bad => simp only [e1] at this) w hg.av
      have hpr := (pres_apply c xs.length hp (.user x) (xs.map .user) (by simp) b).run w hg.inv
      simp only [visit, List.map_cons]
      cases e1 : apply c v (.user x) (xs.map .user) b w with
      | ok w' r =>
        simp only [e1] at key hpr ⊢
        have hc := cont_emb key.1
        exact ⟨hc, ⟨hpr, by rw [hc]; exact key.1, by rw [hc]; exact hg.ok⟩, key.2⟩
      | exc w' =>
        simp only [e1] at key hpr ⊢
        have hc := cont_emb key.1
        exact ⟨hc, ⟨hpr, by rw [hc]; exact key.1, by rw [hc]; exact hg.ok⟩, key.2⟩
      | term => simp only [e1] at key ⊢; exact key
      | bad => simp only [e1] at key

/-- One or two variants: exactly one call, of any visitor, in the state as it is. -/
theorem c81_once (c : Cls α) (hn : c.n ≤ 16) (h0 : 0 < c.n) (ks : List (Cmd α)) (h : LegalRun c init ks) (w : W α) (ts : List Bool)
    (e : run c init ks = .inr (w, ts)) (v : Fn α γ) (b i j : Nat) (p q : Val α) (hi : cont w i = some (some p)) (hj : cont w j = some (some q)) :
    visit c v [.user i] b w = v [p] w ∧ visit c v [.user i, .user j] b w = v [p, q] w := by
  have hg := (good_run hn h0 (good_init c) ks h).2 w ts e
  have one : ∀ (i : Nat) (p : Val α), cont w i = some (some p) → ∀ v : Fn α γ, apply1 c v (.user i) w = v [p] w := by
    intro i p hi v
    obtain ⟨k, u⟩ := p
    have hk : k < c.n := hg.ok i _ hi _ rfl
    have h16 : k < 16 := by omega
    obtain ⟨h1, -, -, h2, -⟩ := c79_access c hn h0 ks h w ts e i _ hi k hk
    simp only [Option.map_some, if_true] at h1 h2
    simp only [apply1, bind_eq, M.bind, h1, h16, hk, if_true, h2]
  refine ⟨?_, ?_⟩
  · rw [visit, apply]; exact one i p hi v
  · rw [visit, apply, copyIn, temps]
    simp only [List.length_nil, List.range'_zero, List.map_nil, apply]
    rw [one j q hj, unwrapper, one i p hi]
    simp [typed]

/-- Six variants do not compile. -/
theorem c81_six_false (v : Fn α γ) (vals : List (Val α)) (u : Val α) (h : vals.length = 5) (w : W α) : typed v vals [u] w = .bad := by
  simp [typed, h, bad]

/-! ### Hypotheses are met -/

/-- A visitor that adds its arguments and throws if there are none. -/
def sum : Fn Nat Nat := fun l w => if l = [] then .exc w else .ok w (l.foldl (fun s p => s + p.2) 0)

example : Visitor sum (fun l r => r = l.foldl (fun s p => s + p.2) 0) (· = []) fun _ => False := by
  intro l w
  by_cases h : l = [] <;> simp [sum, h]

/-- Three variants, and numbers from 3 on not in use. -/
example : ∃ w, run demoCls init [.default 0, .ofValue 1 true 1 (.lit 5), .copy 2 1] = .inr (w, [false, false, false]) ∧
    LegalRun demoCls init [.default 0, .ofValue 1 true 1 (.lit 5), .copy 2 1] ∧
    [0, 1, 2].map (cont w) = [some (0, 7), some (1, 5), some (1, 5)].map some ∧ ∀ l, cont w (3 + l) = none := by
  simp [demoCls, LegalRun, Legal, Has, cont, run, init, step, ctorDefault, ctorValue, ctorCopy, ctor, constructFrom, copyConstruct, readSrc, leave, construct, call, place,
    declare, M.onExc, slot, case, readObj, W.set, bind_eq, pure_eq, M.bind, M.pure]
  intro l
  have h2 : ¬ 3 + l = 2 := by omega
  have h1 : ¬ 3 + l = 1 := by omega
  simp [h1, h2]

end Nanostl.Variant
