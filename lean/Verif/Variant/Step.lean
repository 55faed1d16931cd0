import Verif.Variant.Wp

/-! Each command against the specification. -/

namespace Nanostl.Variant

variable {α : Type}

open Spec

/-- The program's variables have these contents and there is nothing else. -/
def emb (f : Cont α) : AV α := fun x => match x with
  | .user i => (f i).map enc
  | _ => none

theorem emb_upd (f : Cont α) (i : Nat) (o : Option (Option (Val α))) : updv (emb f) (.user i) (o.map enc) = emb (upd f i o) := by
  funext x
  cases x with
  | user j =>
    simp only [updv, emb, upd, Var.user.injEq]
    split <;> rfl
  | tmp => simp [updv, emb]
  | val => simp [updv, emb]

theorem emb_upd_some (f : Cont α) (i : Nat) (o : Option (Val α)) : updv (emb f) (.user i) (some (enc o)) = emb (upd f i (some o)) := emb_upd f i (some o)
theorem emb_upd_none (f : Cont α) (i : Nat) : updv (emb f) (.user i) none = emb (upd f i none) := emb_upd f i none

theorem emb_inj {f g : Cont α} (h : emb f = emb g) : f = g := by
  funext i
  have := congrFun h (.user i)
  simp only [emb] at this
  cases e : f i <;> cases e' : g i <;> simp [e, e'] at this ⊢
  simpa [enc] using congrArg Prod.snd this

theorem cont_emb {w : W α} {f : Cont α} (h : av w = emb f) : cont w = f := by
  funext i
  have := congrFun h (.user i)
  simp only [emb, av] at this
  simp only [cont]
  cases e : w.vars (.user i) with
  | none => rw [e] at this; cases e' : f i <;> simp [e'] at this ⊢
  | some s =>
    rw [e] at this
    cases e' : f i with
    | none => rw [e'] at this; simp at this
    | some o => rw [e'] at this; simp only [Option.map_some, Option.some.injEq] at this ⊢; exact congrArg Prod.snd this

/-- Every alternative is one of the variant's. -/
def Ok (c : Cls α) (f : Cont α) : Prop := ∀ i o, f i = some o → InAlt c o

theorem Ok.upd {c : Cls α} {f : Cont α} (h : Ok c f) (i : Nat) {o : Option (Option (Val α))} (ho : ∀ p, o = some p → InAlt c p) : Ok c (upd f i o) := by
  intro j p
  simp only [Spec.upd]
  split
  · exact ho p
  · exact h j p

theorem Ok.left {c : Cls α} {o : Option (Option (Val α))} (h : ∀ p, o = some p → InAlt c p) : ∀ p, left c.moved o = some p → InAlt c p := by
  intro p hp v hv
  cases o with
  | none => cases hp
  | some q =>
    simp only [Spec.left, Option.map_some, Option.some.injEq] at hp
    subst hp
    cases q with
    | none => cases hv
    | some u => simp only [Option.map_some, Option.some.injEq] at hv; subst hv; exact h _ rfl u rfl

theorem Ok.store {c : Cls α} {f : Cont α} (h : Ok c f) (i : Nat) {k : Nat} (hk : k < c.n) (m : Bool) (s : Src α) : Ok c (store c.moved f i k m s) := by
  have one : ∀ v : α, ∀ p, some (some (k, v)) = some p → InAlt c p := by
    rintro v p hp u rfl; simp only [Option.some.injEq] at hp; subst hp; exact hk
  cases s with
  | lit v => exact h.upd i (one v)
  | «at» j =>
    simp only [Spec.store]
    split
    · split
      · exact (h.upd i (one _)).upd j (one _)
      · exact h.upd i (one _)
    · exact h

theorem Ok.step {c : Cls α} (hc : 0 < c.n) {f : Cont α} (h : Ok c f) {k : Cmd α} (hl : Legal c.n f k) : Ok c (Spec.step c.moved c.dflt f k) := by
  cases k with
  | default i => exact h.upd i (by rintro p hp u rfl; simp only [Option.some.injEq] at hp; subst hp; exact hc)
  | ofValue i m k s => exact h.store i hl.2.1 m s
  | inPlaceT i m k s => exact h.store i hl.2.1 m s
  | inPlaceI i m k s => exact h.store i hl.2.1 m s
  | copy i j => exact h.upd i (h j)
  | move i j => exact (h.upd i (h j)).upd j (Ok.left (h j))
  | assignCopy i j => exact h.upd i (h j)
  | assignMove i j => exact (h.upd i (h j)).upd j (Ok.left (h j))
  | assignValue i m k s => exact h.store i hl.2.1 m s
  | emplaceT i m k s => exact h.store i hl.2.1 m s
  | emplaceI i m k s => exact h.store i hl.2.1 m s
  | swap i j => exact (h.upd i (h j)).upd j (h i)
  | destroy i => exact h.upd i (by rintro p hp; cases hp)

theorem Ok.exc {c : Cls α} {f f' : Cont α} (h : Ok c f) {k : Cmd α} (he : Exc c.moved f f' k) : Ok c f' := by
  have nv : ∀ p : Option (Val α), some none = some p → InAlt c p := by
    rintro p hp u rfl; simp at hp
  cases k with
  | default i => rw [show f' = f from he]; exact h
  | ofValue i m k s => rw [show f' = f from he]; exact h
  | inPlaceT i m k s => rw [show f' = f from he]; exact h
  | inPlaceI i m k s => rw [show f' = f from he]; exact h
  | copy i j => rw [show f' = f from he]; exact h
  | move i j => rw [show f' = f from he]; exact h
  | assignCopy i j => simp only [Exc] at he; subst he; split <;> [exact h; exact h.upd i nv]
  | assignMove i j => simp only [Exc] at he; subst he; split <;> [exact h; exact h.upd i nv]
  | assignValue i m k s => simp only [Exc] at he; subst he; split <;> [exact h; exact h.upd i nv]
  | emplaceT i m k s => rw [show f' = _ from he]; exact h.upd i nv
  | emplaceI i m k s => rw [show f' = _ from he]; exact h.upd i nv
  | swap i j =>
    rcases he with rfl | he
    · exact h
    · split at he
      · rcases he with rfl | rfl
        · exact h.upd i (Ok.left (h i))
        · exact h.upd i (Ok.left (Ok.left (h i)))
      · split at he
        · rcases he with rfl | rfl
          · exact h.upd i (Ok.left (h i))
          · exact (h.upd i (h j)).upd j (Ok.left (h j))
        · rcases he with rfl | rfl
          · exact h.upd i nv
          · exact (h.upd i (h j)).upd j nv
  | destroy i => exact absurd he id

/-- `std::terminate` is called only where a promise is broken: a move assignment or a `swap` whose alternatives can all be assigned without exceptions
but not constructed. -/
def Term (c : Cls α) : Cmd α → Prop
  | .assignMove .. => Thr c ∧ allAssign c = true ∧ allCtor c = false
  | .swap .. => Thr c ∧ allAssign c = true ∧ allCtor c = false
  | _ => False

theorem hasV_emb {f : Cont α} {k : Nat} {s : Src α} (h : Has f k s) : ∃ v, HasV (emb f) k v s ∧ (∀ j, s = .at j → f j = some (some (k, v))) ∧ (∀ u, s = .lit u → u = v) := by
  cases s with
  | lit u => exact ⟨u, rfl, by simp, by rintro _ ⟨⟩; rfl⟩
  | «at» j =>
    obtain ⟨v, hv⟩ := h
    refine ⟨v, ⟨k, ?_⟩, ?_, by simp⟩
    · simp [emb, hv, enc]
    · rintro _ ⟨⟩; exact hv

/-- The target got its value, the source what is left of it. -/
theorem leave_emb {c : Cls α} {f : Cont α} {i k : Nat} {s : Src α} {m : Bool} {v : α} (hv : ∀ j, s = .at j → f j = some (some (k, v)))
    (hl : ∀ u, s = .lit u → u = v) : leaveA c m (emb (upd f i (some (some (k, v))))) k v s = emb (store c.moved f i k m s) := by
  cases s with
  | lit u => have := hl u rfl; subst this; rfl
  | «at» j =>
    simp only [leaveA, store, hv j rfl]
    cases m with
    | false => rfl
    | true =>
      simp only [if_true]
      rw [← emb_upd_some (upd f i _) j]
      congr 1
      by_cases h : j = i
      · simp [emb, upd, h, enc]
      · simp [emb, upd, h, hv j rfl, enc]

theorem m_assoc {β γ δ : Type} (m : M α β) (f : β → M α γ) (g : γ → M α δ) : ((m >>= f) >>= g) = m >>= fun b => f b >>= g := by
  funext w
  simp only [bind_eq, M.bind]
  cases m w <;> rfl

theorem m_pure {β γ : Type} (b : β) (f : β → M α γ) : ((pure b : M α β) >>= f) = f b := rfl

theorem m_unit (m : M α Unit) : (m >>= fun _ => pure ()) = m := by
  funext w
  simp only [bind_eq, M.bind]
  cases m w <;> rfl

theorem constructT_eq {c : Cls α} {k : Nat} (hk : k < c.n) (m : Bool) (x : Var) (s : Src α) : (constructT c m x k s >>= fun i => setIdx x i) =
    constructFrom c m x k s >>= fun _ => setIdx x k := by
  have : indexOf c k = (k : Int) := if_pos hk
  rw [constructT, m_assoc, this]
  rfl

theorem awp_step {c : Cls α} (hn : c.n ≤ 16) {f : Cont α} (hf : Ok c f) {k : Cmd α} (hl : Legal c.n f k) :
    awp (step c k) (fun _ a => a = emb (Spec.step c.moved c.dflt f k)) (fun a => Thr c ∧ ∃ f', a = emb f' ∧ Exc c.moved f f' k) (Term c k) (emb f) := by
  have no : ∀ {i}, f i = none → emb f (.user i) = none := by intro i h; simp [emb, h]
  have so : ∀ {i}, f i ≠ none → ∃ o, f i = some o ∧ emb f (.user i) = some (enc o) := by
    intro i h
    obtain ⟨o, ho⟩ := Option.ne_none_iff_exists'.mp h
    exact ⟨o, ho, by simp [emb, ho]⟩
  have altE : ∀ {i o}, f i = some o → alt f i = altO o := by intro i o h; simp [alt, h, altO]
  -- the constructors from a value
  have mk : ∀ {i k : Nat} {m : Bool} {s : Src α} {j : Int} (r : Unit → M α Unit), f i = none → k < c.n → Has f k s →
      (∀ {Q : Unit → AV α → Prop} {E : AV α → Prop} {T : Prop} {b : AV α} {p}, b (.user i) = some (j, p) → Q () (updv b (.user i) (some ((k : Int), p))) → awp (r ()) Q E T b) →
      awp (ctor (.user i) j (do constructFrom c m (.user i) k s; r ())) (fun _ a => a = emb (store c.moved f i k m s)) (fun a => Thr c ∧ ∃ f', a = emb f' ∧ f' = f) False (emb f) := by
    intro i k m s j r hi hk hs hr
    obtain ⟨v, h1, h2, h3⟩ := hasV_emb hs
    have hne : ∀ j, s = .at j → Var.user j ≠ .user i := by
      rintro j rfl e
      cases e
      rw [h2 _ rfl] at hi; cases hi
    refine awp_ctor (no hi) (awp_bind (awp_constructFrom c m (updv_same _ _ _) (h1.other hne) ?_ (fun _ ht => ⟨rfl, ht, f, rfl, rfl⟩)))
    rw [updv_updv]
    have e1 : leaveA c m (updv (emb f) (.user i) (some (j, some (k, v)))) k v s (.user i) = some (j, some (k, v)) := by
      cases s with
      | lit u => simp [leaveA]
      | «at» l =>
        simp only [leaveA]
        split
        · rw [updv_ne _ _ (Ne.symm (hne l rfl)), updv_same]
        · rw [updv_same]
    refine hr e1 ?_
    rw [← leave_emb h2 h3, ← emb_upd_some]
    cases s with
    | lit u => simp [leaveA, enc]
    | «at» l =>
      simp only [leaveA]
      split
      · rw [updv_comm _ (hne l rfl), updv_updv, updv_ne _ _ (hne l rfl), updv_ne _ _ (hne l rfl)]; rfl
      · rw [updv_updv]; rfl
  -- in place, after the old value is destroyed
  have em : ∀ {i k : Nat} {m : Bool} {s : Src α} {T : Prop}, f i ≠ none → k < c.n → Has f k s → (∀ j, s = .at j → j ≠ i) →
      awp (do clear (.user i); constructFrom c m (.user i) k s; setIdx (.user i) (k : Int)) (fun _ a => a = emb (store c.moved f i k m s))
        (fun a => Thr c ∧ a = emb (upd f i (some none))) T (emb f) := by
    intro i k m s T hi hk hs hne
    obtain ⟨v, h1, h2, h3⟩ := hasV_emb hs
    obtain ⟨o, ho, he⟩ := so hi
    have hne : ∀ j, s = .at j → Var.user j ≠ .user i := by
      rintro j rfl e
      cases e
      exact hne _ rfl rfl
    refine awp_bind (awp_clear hn he (hf i o ho) (awp_bind (awp_constructFrom c m (updv_same _ _ _) (h1.other hne) ?_ (fun _ ht => ⟨ht, emb_upd_some _ _ _⟩))))
    rw [updv_updv]
    have e1 : leaveA c m (updv (emb f) (.user i) (some (-1, some (k, v)))) k v s (.user i) = some (-1, some (k, v)) := by
      cases s with
      | lit u => simp [leaveA]
      | «at» l =>
        simp only [leaveA]
        split
        · rw [updv_ne _ _ (Ne.symm (hne l rfl)), updv_same]
        · rw [updv_same]
    refine awp_setIdx e1 ?_
    rw [← leave_emb h2 h3, ← emb_upd_some]
    cases s with
    | lit u => simp [leaveA, enc]
    | «at» l =>
      simp only [leaveA]
      split
      · rw [updv_comm _ (hne l rfl), updv_updv, updv_ne _ _ (hne l rfl), updv_ne _ _ (hne l rfl)]; rfl
      · rw [updv_updv]; rfl
  cases k with
  | default i =>
    refine awp_ctor (no hl) (awp_construct c _ (updv_same _ _ _) ?_ (fun _ ht => ⟨rfl, ht, f, rfl, rfl⟩))
    rw [updv_updv]
    exact emb_upd_some f i (some (0, c.dflt))
  | ofValue i m k s =>
    have := mk (j := k) (m := m) (fun _ => pure ()) hl.1 hl.2.1 hl.2.2 (by
      intro Q E T b p hb hq; refine awp_pure _ ?_; rwa [updv_self _ _ _ hb] at hq)
    rw [m_unit] at this
    exact awp_mono this (fun _ _ h => h) (fun _ h => h) False.elim
  | inPlaceT i m k s =>
    have := mk (j := -1) (m := m) (fun _ => setIdx (.user i) k) hl.1 hl.2.1 hl.2.2 (fun hb hq => awp_setIdx hb hq)
    rw [← constructT_eq hl.2.1] at this
    exact awp_mono this (fun _ _ h => h) (fun _ h => h) False.elim
  | inPlaceI i m k s =>
    have := mk (j := -1) (m := m) (fun _ => setIdx (.user i) k) hl.1 hl.2.1 hl.2.2 (fun hb hq => awp_setIdx hb hq)
    have e : (constructI c m (.user i) k s >>= fun j => setIdx (.user i) j) = constructFrom c m (.user i) k s >>= fun _ => setIdx (.user i) k := by
      rw [constructI, constructT, m_assoc, m_assoc]; rfl
    rw [← e] at this
    exact awp_mono this (fun _ _ h => h) (fun _ h => h) False.elim
  | copy i j =>
    obtain ⟨o, ho, he⟩ := so hl.2
    refine awp_ctorCopy hn he (hf j o ho) (no hl.1) ?_ (fun ht => ⟨ht, f, rfl, rfl⟩)
    rw [emb_upd_some]; simp only [Spec.step, ho]
  | move i j =>
    obtain ⟨o, ho, he⟩ := so hl.2
    refine awp_ctorMove hn he (hf j o ho) (no hl.1) ?_ (fun _ ht => ⟨ht, f, rfl, rfl⟩)
    rw [emb_upd_some, emb_upd_some]; simp only [Spec.step, ho]; rfl
  | assignCopy i j =>
    obtain ⟨o, ho, he⟩ := so hl.1
    obtain ⟨p, hp, he'⟩ := so hl.2
    refine awp_assignCopy hn he he' (hf i o ho) (hf j p hp) ?_ (fun ht => ⟨ht, if alt f i = alt f j then f else upd f i (some none), ?_, rfl⟩)
    · rw [emb_upd_some]; simp only [Spec.step, hp]
    · rw [altE ho, altE hp]; split
      · rfl
      · rw [emb_upd_some]
  | assignMove i j =>
    obtain ⟨o, ho, he⟩ := so hl.1
    obtain ⟨p, hp, he'⟩ := so hl.2
    refine awp_assignMove hn he he' (hf i o ho) (hf j p hp) ?_ (fun ht _ _ => ⟨ht, if alt f i = alt f j then f else upd f i (some none), ?_, rfl⟩) ?_
    · rw [emb_upd_some, emb_upd_some]; simp only [Spec.step, hp]; rfl
    · rw [altE ho, altE hp]; split
      · rfl
      · rw [emb_upd_some]
    · rintro ht hA - ⟨v, rfl, hv⟩
      refine ⟨ht, hA, ?_⟩
      simp only [allCtor, List.all_eq_false, List.mem_range]
      exact ⟨v.1, hf j _ hp v rfl, by simp [hv]⟩
  | assignValue i m k s =>
    obtain ⟨o, ho, he⟩ := so hl.1
    refine awp_bind (awp_index he ?_)
    by_cases hal : altO o = some k
    · refine ite_pos hal ?_
      obtain ⟨v, h1, h2, h3⟩ := hasV_emb hl.2.2
      cases o with
      | none => cases hal
      | some u =>
        obtain ⟨k', u⟩ := u
        simp only [altO, Option.map_some, Option.some.injEq] at hal; subst hal
        refine awp_assignFrom c m he h1 ?_ (fun _ ht => ⟨ht, f, rfl, ?_⟩)
        · have := leave_emb (c := c) (i := i) (m := m) h2 h3
          rw [← emb_upd_some] at this; exact this
        · simp only [Exc]; rw [if_pos (show alt f i = some k' from altE ho)]
    · refine ite_neg hal (awp_mono (em hl.1 hl.2.1 hl.2.2 ?_) (fun _ _ h => h) (fun a h => ⟨h.1, _, h.2, ?_⟩) id)
      · rintro j rfl rfl
        obtain ⟨v, hv⟩ := hl.2.2
        rw [ho] at hv; cases hv; exact hal rfl
      · simp only [Exc]; rw [if_neg (by rw [altE ho]; exact hal)]
  | emplaceT i m k s =>
    have := em (m := m) (T := False) hl.1 hl.2.1 hl.2.2.1 hl.2.2.2
    rw [← constructT_eq hl.2.1] at this
    exact awp_mono this (fun _ _ h => h) (fun a h => ⟨h.1, _, h.2, rfl⟩) False.elim
  | emplaceI i m k s =>
    have := em (m := m) (T := False) hl.1 hl.2.1 hl.2.2.1 hl.2.2.2
    rw [← constructT_eq hl.2.1] at this
    exact awp_mono this (fun _ _ h => h) (fun a h => ⟨h.1, _, h.2, rfl⟩) False.elim
  | swap i j =>
    obtain ⟨o, ho, he⟩ := so hl.1
    obtain ⟨p, hp, he'⟩ := so hl.2
    refine awp_swap hn he he' (hf i o ho) (hf j p hp) rfl rfl ?_ (fun ht _ a' hs => ⟨ht, ?_⟩) (fun ht hA hB _ => ⟨ht, hA, hB⟩)
    · rw [emb_upd_some, emb_upd_some]; simp only [Spec.step, ho, hp]
    · rcases hs with rfl | hs
      · exact ⟨f, rfl, .inl rfl⟩
      · simp only [Var.user.injEq] at hs
        split at hs
        · rename_i hij
          rcases hs with rfl | rfl
          · exact ⟨_, emb_upd_some _ _ _, .inr (by rw [if_pos hij, ho]; exact .inl rfl)⟩
          · exact ⟨_, emb_upd_some _ _ _, .inr (by rw [if_pos hij, ho]; exact .inr rfl)⟩
        · rename_i hij
          split at hs
          · rename_i hal
            rw [← altE ho, ← altE hp] at hal
            rcases hs with rfl | rfl
            · exact ⟨_, emb_upd_some _ _ _, .inr (by rw [if_neg hij, if_pos hal, ho]; exact .inl rfl)⟩
            · exact ⟨_, by rw [emb_upd_some]; exact emb_upd_some _ _ _, .inr (by rw [if_neg hij, if_pos hal, hp]; exact .inr rfl)⟩
          · rename_i hal
            rw [← altE ho, ← altE hp] at hal
            rcases hs with rfl | rfl
            · exact ⟨_, emb_upd_some _ _ _, .inr (by rw [if_neg hij, if_neg hal]; exact .inl rfl)⟩
            · exact ⟨_, by rw [emb_upd_some]; exact emb_upd_some _ _ _, .inr (by rw [if_neg hij, if_neg hal, hp]; exact .inr rfl)⟩
  | destroy i =>
    obtain ⟨o, ho, he⟩ := so hl
    exact awp_dtor hn he (hf i o ho) (emb_upd_none _ _)

end Nanostl.Variant
