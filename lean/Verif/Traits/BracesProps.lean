import Verif.Traits.Braces
import Verif.Traits.WrapProps

/-! C122, C123: the object that an `optional`, `expected` or `unexpected` is made to hold is `T( a )`; whatever conversion is accepted compiles. -/

namespace Nanostl.Traits.Wrap
open Nanostl.Traits.Spec

/-- `T{ a }` is the same as `T( a )`. -/
def Plain (B : Braces) (t a : Ty) : Prop := ∀ x, valueOf a = some x → B.list t x = false ∧ B.narrows t x = false

/-- A `T` can be moved. -/
def Movable (L : Lang) (t : Ty) : Prop := constructible L t [.rref t] = true

theorem direct_eq (L : Lang) {t : Ty} (h : Held t) (a : Ty) : direct L t a = if constructible L t [a] then .paren else .bad := by
  simp only [direct, ctor_eq L h]

theorem braced_plain (L : Lang) (B : Braces) {t a : Ty} (h : Held t) (hp : Plain B t a) (hc : constructible L t [a] = true) : braced L B t a = .paren := by
  unfold braced
  rw [declval_eq]
  cases hv : valueOf a with
  | none => simp [constructible, hv] at hc
  | some x =>
    obtain ⟨h1, h2⟩ := hp x hv
    simp only [h1, h2, ctor_eq L h, hc]
    rfl

theorem bracedMoved_plain (L : Lang) (B : Braces) {t a : Ty} (h : Held t) (hm : Movable L t) (hp : Plain B t a) (hc : constructible L t [a] = true) :
    bracedMoved L B t a = .paren := by
  have hm' : constructible L t [.rref t] = true := hm
  rw [bracedMoved, ctor_eq L h, hm', if_pos rfl, braced_plain L B h hp hc]

/-- The type as which an argument of type `T` itself is passed on. -/
def own (s : Src) : Ty := if s.lv || s.const then .lref (addConst s.base) else .rref s.base

theorem place_ok (L : Lang) {t : Ty} (h : Held t) (s : Src) (hs : Held s.base) (hq : quals s.base = {}) (hm : Movable L t)
    (hc : convertible L s.fwd t = true) (ho : s.base = t → constructible L t [own s] = true) : place L t s.fwd = .paren := by
  have hm' : constructible L t [.rref t] = true := hm
  unfold place
  rw [uncvref_fwd hs hq, fwd_eq, c106_convertible L (arrives_wf hs _ _) h.wf, ← fwd_eq, hc, ctor_eq L h, hm']
  by_cases k : s.base = t
  · have hown := ho k
    rw [if_pos k, direct_eq L h]
    have : (if s.fwd = Ty.rref t then Ty.rref t else .lref (addConst t)) = own s := by
      obtain ⟨b, lv, const⟩ := s
      simp only at k
      subst k
      cases lv <;> cases const <;> simp only [Src.fwd, Src.ty, own, Bool.or_true, Bool.or_false, Bool.false_eq_true, if_true, if_false]
      · have hne : addConst b ≠ b := by
          intro e
          obtain ⟨w1, w2, w3⟩ := h
          rcases b with ⟨q, x⟩ | ⟨q, x⟩ | ⟨q, x, y⟩ | ⟨x, n⟩ | ⟨q, r, a⟩ | x | x <;> simp_all [addConst, quals, cat, object]
        simp [hne]
      · simp
      · simp
    rw [this, hown]; rfl
  · rw [if_neg k]; rfl

theorem place_copy (L : Lang) {t u : Ty} (h : Held t) (hu : Held u) (hq : quals u = {}) (hm : Movable L t) (hc : convertible L (.lref (addConst u)) t = true)
    (hk : constructible L t [.lref (addConst u)] = true) : place L t (.lref (addConst u)) = .paren :=
  place_ok L h ⟨u, true, true⟩ hu hq hm hc (by rintro rfl; exact hk)

theorem place_move (L : Lang) {t u : Ty} (h : Held t) (hu : Held u) (hq : quals u = {}) (hm : Movable L t) (hc : convertible L (.rref u) t = true)
    (_hk : constructible L t [.rref u] = true) : place L t (.rref u) = .paren :=
  place_ok L h ⟨u, false, false⟩ hu hq hm hc (by rintro rfl; exact hm)

/-- Where no implicit conversion makes a `T` of the `U`, braces do no harm. -/
def BracesOk (L : Lang) (B : Braces) (t u : Ty) : Prop :=
  (convertible L (.lref (addConst u)) t = false → Plain B t (.lref (addConst u))) ∧ (convertible L (.rref u) t = false → Plain B t (.rref u))

theorem resolve_cases (s : Src) (cp mv fw : Bool) : (resolve s cp mv fw = .copy ∧ cp = true) ∨ (resolve s cp mv fw = .move ∧ mv = true) ∨
    (resolve s cp mv fw = .value ∧ fw = true) ∨ resolve s cp mv fw = .none := by
  cases h1 : s.lv <;> cases h2 : s.const <;> cases cp <;> cases mv <;> cases fw <;> simp [resolve, h1, h2]

theorem pick_cases (s : Src) (mv cp : Bool) : (expectedPick s mv cp = .move ∧ mv = true) ∨ (expectedPick s mv cp = .copy ∧ cp = true) ∨ expectedPick s mv cp = .none := by
  cases h1 : s.lv <;> cases h2 : s.const <;> cases cp <;> cases mv <;> simp [expectedPick, h1, h2]

theorem copyOf (L : Lang) (B : Braces) {t u : Ty} (ht : Held t) (hu : Held u) (hqu : quals u = {}) (hm : Movable L t) (hb : BracesOk L B t u)
    (hk : constructible L t [.lref (addConst u)] = true) (c : Bool) (hc : c = convertible L (.lref (addConst u)) t) :
    (if c then place L t (.lref (addConst u)) else bracedMoved L B t (.lref (addConst u))) = .paren := by
  cases hh : convertible L (.lref (addConst u)) t with
  | true => rw [hc, hh, if_pos rfl, place_copy L ht hu hqu hm hh hk]
  | false => rw [hc, hh, if_neg (by decide), bracedMoved_plain L B ht hm (hb.1 hh) hk]

theorem moveOf (L : Lang) (B : Braces) {t u : Ty} (ht : Held t) (hu : Held u) (hqu : quals u = {}) (hm : Movable L t) (hb : BracesOk L B t u)
    (hk : constructible L t [.rref u] = true) (c : Bool) (hc : c = convertible L (.rref u) t) :
    (if c then place L t (.rref u) else bracedMoved L B t (.rref u)) = .paren := by
  cases hh : convertible L (.rref u) t with
  | true => rw [hc, hh, if_pos rfl, place_move L ht hu hqu hm hh hk]
  | false => rw [hc, hh, if_neg (by decide), bracedMoved_plain L B ht hm (hb.2 hh) hk]

theorem or_split {d a k : Bool} (h : ((k && (a != false)) || (d && (k && (a != true)))) = true) : k = true ∧ (a = true ∨ d = true) := by
  cases d <;> cases a <;> cases k <;> simp_all

/-- C122, as far as it holds: whatever constructor of `optional<T>` is called with an `optional<U>`, its body compiles and the value is `T( a )`, if a `T` can be moved and, where the
conversion is not implicit, `T{ a }` is `T( a )`. Missing: types for which braces mean something else, or nothing, and types that cannot be moved. -/
theorem c122_optional_partial (L : Lang) (B : Braces) {t u self : Ty} (ht : Held t) (hu : Held u) (hqu : quals u = {}) (s : Src) (hm : Movable L t)
    (hb : BracesOk L B t u) (d : Bool) : optMade L B t u self d s = if optFrom L t u self d s = .none then none else some .paren := by
  have c1 := c106_convertible L hu.addConst.lref ht.wf
  have c2 := c106_convertible L hu.rref ht.wf
  unfold optMade
  rcases resolve_cases s (optCopy L t u s.base false || (d && optCopy L t u s.base true)) (optMove L t u s.base false || (d && optMove L t u s.base true))
    (optValue L t self s false || (d && optValue L t self s true)) with ⟨e, k⟩ | ⟨e, k⟩ | ⟨e, k⟩ | e
  · have e' : optFrom L t u self d s = .copy := e
    obtain ⟨k1, _⟩ := or_split k
    simp only [Bool.and_eq_true, ctor_eq L ht] at k1
    simp only [e']
    rw [copyOf L B ht hu hqu hm hb k1.1 _ (by simp [optCopy, ctor_eq L ht, k1, c1])]
    rfl
  · have e' : optFrom L t u self d s = .move := e
    obtain ⟨k1, _⟩ := or_split k
    simp only [Bool.and_eq_true, ctor_eq L ht] at k1
    simp only [e']
    rw [moveOf L B ht hu hqu hm hb k1.1 _ (by simp [optMove, ctor_eq L ht, k1, c2])]
    rfl
  · have e' : optFrom L t u self d s = .value := e
    obtain ⟨k1, _⟩ := or_split k
    simp only [Bool.and_eq_true] at k1
    simp only [e', direct, k1.1]
    rfl
  · have e' : optFrom L t u self d s = .none := e
    simp only [e', if_true]

/-- C122, as far as it holds: an `expected<T, E>` is made from a value exactly if a `T` is, implicitly exactly if the `T` is, and the value is `T( a )`. -/
theorem c122_expected_value_partial (L : Lang) (B : Braces) {t self unx : Ty} (ht : Held t) (s : Src) (hs : Held s.base) (hq : quals s.base = {})
    (hd : s.base ≠ self) (hd2 : s.base ≠ unx) (hm : Movable L t) (ho : s.base = t → constructible L t [own s] = true)
    (hp : convertible L s.fwd t = false → Plain B t s.fwd) (d : Bool) :
    expMadeValue L B t self unx d s = if makes L d t s.fwd then some .paren else none := by
  have hx : is_same self (uncvref s.fwd) = false := by
    rw [uncvref_fwd hs hq]; simpa [is_same] using Ne.symm hd
  have hy : is_same unx (uncvref s.fwd) = false := by
    rw [uncvref_fwd hs hq]; simpa [is_same] using Ne.symm hd2
  have c := c106_convertible L (arrives_wf hs s.lv s.const) ht.wf
  rw [← fwd_eq] at c
  simp only [expMadeValue, expValue, hx, hy, c, ctor_eq L ht, makes, Bool.not_false, Bool.and_true]
  by_cases hk : constructible L t [s.fwd] = true
  · by_cases hh : convertible L s.fwd t = true
    · simp [hk, hh, place_ok L ht s hs hq hm hh ho]
    · simp only [Bool.not_eq_true] at hh
      cases d <;> simp [hk, hh, bracedMoved_plain L B ht hm (hp hh) hk]
  · simp only [Bool.not_eq_true] at hk
    simp [hk]

/-- C122, as far as it holds: whatever converting constructor of `expected<T, E>` is called with an `expected<U, G>`, value and error are `T( a )` and `E( b )`. `BracesOk` is needed of both,
as the constructor is explicit if one of the conversions is. -/
theorem c122_expected_partial (L : Lang) (B : Braces) {t e u g self unx : Ty} (ht : Held t) (he : Held e) (hu : Held u) (hg : Held g) (hqu : quals u = {})
    (hqg : quals g = {}) (s : Src) (hmt : Movable L t) (hme : Movable L e) (hf : Foreign L t s.base) (hs : Held s.base)
    (hb : Plain B t (.lref (addConst u)) ∧ Plain B t (.rref u) ∧ Plain B e (.lref (addConst g)) ∧ Plain B e (.rref g)) (d : Bool)
    (hv : L.conv s.expr (.lref (addConst t)) = false) :
    expMade L B t e u g self unx d s =
      if expectedPick s (makes2 L d t (.rref u) e (.rref g)) (makes2 L d t (.lref (addConst u)) e (.lref (addConst g))) = .none then none else some (.paren, .paren) := by
  have h1 := (c113_conversion_partial L (self := self) (unx := unx) ht he hu hg s hs hf hv d).1
  have hun := (unrelated_eq L ht hs).2 hf
  have c1 := c106_convertible L hu.addConst.lref ht.wf
  have c2 := c106_convertible L hu.wf ht.wf
  have c3 := c106_convertible L hg.addConst.lref he.wf
  have c4 := c106_convertible L hg.wf he.wf
  rw [convertible_rref L t hu] at c2
  rw [convertible_rref L e hg] at c4
  unfold expMade
  rw [h1]
  rcases pick_cases s (makes2 L d t (.rref u) e (.rref g)) (makes2 L d t (.lref (addConst u)) e (.lref (addConst g))) with ⟨h, k⟩ | ⟨h, k⟩ | h
  · simp only [h]
    simp only [Bool.and_eq_true, makes2, makes] at k
    obtain ⟨⟨k1, _⟩, k2, _⟩ := k
    simp only [expMove, hun, ctor_eq L ht, ctor_eq L he, constructible_rref L t hu, constructible_rref L e hg, k1, k2, c2, c4]
    cases h5 : convertible L (.rref u) t <;> cases h6 : convertible L (.rref g) e <;>
      simp [bracedMoved_plain L B ht hmt hb.2.1 k1, bracedMoved_plain L B he hme hb.2.2.2 k2, h5, h6, place_move L ht hu hqu hmt, place_move L he hg hqg hme, k1, k2]
  · simp only [h]
    simp only [Bool.and_eq_true, makes2, makes] at k
    obtain ⟨⟨k1, _⟩, k2, _⟩ := k
    simp only [expCopy, hun, ctor_eq L ht, ctor_eq L he, k1, k2, c1, c3]
    cases h5 : convertible L (.lref (addConst u)) t <;> cases h6 : convertible L (.lref (addConst g)) e <;>
      simp [bracedMoved_plain L B ht hmt hb.1 k1, bracedMoved_plain L B he hme hb.2.2.1 k2, h5, h6, place_copy L ht hu hqu hmt, place_copy L he hg hqg hme, k1, k2]
  · simp only [h, if_true]

/-- C122, as far as it holds: the error made from an `unexpected<G>` is `E( b )`. -/
theorem c122_expected_error_partial (L : Lang) (B : Braces) {t e g self unx : Ty} (he : Held e) (hg : Held g) (hqg : quals g = {}) (s : Src) (hme : Movable L e)
    (hb : BracesOk L B e g) (d : Bool) :
    expMadeError L B t e g self unx d s =
      match expFromUnexpected L t e g self unx d s with
      | .copy | .move => some .paren
      | _ => none := by
  have c1 := c106_convertible L hg.addConst.lref he.wf
  have c2 := c106_convertible L hg.rref he.wf
  unfold expMadeError
  generalize hF : expFromUnexpected L t e g self unx d s = p
  unfold expFromUnexpected at hF
  rcases resolve_cases s (expErrCopy L e g false || (d && expErrCopy L e g true)) (expErrMove L e g false || (d && expErrMove L e g true))
    (expValue L t self unx s false || (d && expValue L t self unx s true)) with ⟨h, k⟩ | ⟨h, k⟩ | ⟨h, k⟩ | h
  · rw [h] at hF
    have hp : p = .copy := by rw [← hF]; simp [orConst]
    subst hp
    obtain ⟨k1, _⟩ := or_split k
    rw [ctor_eq L he] at k1
    simp only []
    rw [copyOf L B he hg hqg hme hb k1 _ (by simp [expErrCopy, ctor_eq L he, k1, c1])]
  · rw [h] at hF
    have hp : p = .move := by rw [← hF]; simp [orConst]
    subst hp
    obtain ⟨k1, _⟩ := or_split k
    rw [ctor_eq L he] at k1
    simp only []
    rw [moveOf L B he hg hqg hme hb k1 _ (by simp [expErrMove, ctor_eq L he, k1, c2])]
  · rw [h] at hF
    have hp : p = .value := by rw [← hF]; simp [orConst]
    subst hp; rfl
  · rw [h] at hF
    have hp : p = .none ∨ p = .valueConst := by
      rw [← hF]; unfold orConst; split <;> simp
    rcases hp with rfl | rfl <;> rfl

/-- C122, as far as it holds: an `expected<void, E>` takes an `unexpected<G>` implicitly exactly if the error converts, and the error is `E( b )`, if an `E` can be made of the `G`. Missing: explicitly it
takes any (`c122_void_false`). -/
theorem c122_void_partial (L : Lang) (B : Braces) {e g : Ty} (he : Held e) (hg : Held g) (hqg : quals g = {}) (s : Src) (hme : Movable L e) (hb : BracesOk L B e g)
    (hk : constructible L e [.lref (addConst g)] = true ∧ constructible L e [.rref g] = true) (d : Bool) :
    voidMadeError L B e g d s = if expectedPick s (makes L d e (.rref g)) (makes L d e (.lref (addConst g))) = .none then none else some .paren := by
  have c1 := c106_convertible L hg.addConst.lref he.wf
  have c2 := c106_convertible L hg.rref he.wf
  unfold voidMadeError
  have e1 : makes L d e (.rref g) = (is_convertible L (.rref g) e || d) := by simp [makes, hk.2, c2, Bool.or_comm]
  have e2 : makes L d e (.lref (addConst g)) = (is_convertible L (.lref (addConst g)) e || d) := by simp [makes, hk.1, c1, Bool.or_comm]
  simp only [resolve_fw, e1, e2]
  rcases pick_cases s (is_convertible L (.rref g) e || d) (is_convertible L (.lref (addConst g)) e || d) with ⟨h, _⟩ | ⟨h, _⟩ | h
  · simp only [h, moveOf L B he hg hqg hme hb hk.2 _ c2]; rfl
  · simp only [h, copyOf L B he hg hqg hme hb hk.1 _ c1]; rfl
  · simp only [h, if_true]

/-! ### unexpected -/

/-- As what the error of an `unexpected<G>` is passed on: only an rvalue that is not const is moved from. -/
def errTy (s : Src) (g : Ty) : Ty := if s.lv || s.const then .lref (addConst g) else .rref g

theorem valueOf_obj {u : Ty} (h : object u) (hv : cat u ≠ .void) : valueOf (.rref u) = valueOf u := by
  obtain ⟨a, b, c, _⟩ := h
  rcases u with ⟨q, (f | k | k | k)⟩ | ⟨q, t⟩ | ⟨q, t, k⟩ | ⟨t, n⟩ | ⟨q, r, a⟩ | t | t
  case base.fund => cases f <;> simp_all [valueOf, cat]
  all_goals simp_all [valueOf, cat]

theorem deduced_eq (L : Lang) (e : Ty) {s : Src} (h : Held s.base) : constructible L e [s.deduced] = constructible L e [s.fwd] := by
  unfold Src.deduced Src.fwd
  cases s.lv
  · simp only [Bool.false_eq_true, if_false]; exact constructible_rref L e (Src.held h)
  · rfl

theorem uncvref_deduced {s : Src} (h : Held s.base) (hq : quals s.base = {}) : uncvref s.deduced = s.base := by
  rw [← uncvref_fwd h hq]
  obtain ⟨b, lv, const⟩ := s
  cases lv
  · have hh := Src.held h
    simp only [Src.deduced, Src.fwd, uncvref, Bool.false_eq_true, if_false]
    have : remove_reference (Src.ty ⟨b, false, const⟩) = Src.ty ⟨b, false, const⟩ := by
      have := hh.obj
      generalize Src.ty ⟨b, false, const⟩ = x at *
      cases x <;> simp_all [remove_reference, object, cat]
    rw [this]; rfl
  · rfl

theorem unxUnrelated_eq (L : Lang) {e x : Ty} (he : Held e) (hx : Held x) : unxUnrelated L e x = unrelated L e x := by
  have c := fun a (w : Spec.wf a) => c106_convertible L w he.wf
  simp only [unxUnrelated, unrelated, ctor_eq L he, c _ hx.lref, c _ hx.rref, c _ hx.wf, c _ hx.addConst.lref, c _ hx.addConst.rref, c _ hx.addConst.wf,
    constructible_rref L e hx, constructible_rref L e hx.addConst, convertible_rref L e hx, convertible_rref L e hx.addConst]

theorem unxFrom_eq (L : Lang) {e g self : Ty} (he : Held e) (hg : Held g) (s : Src) (hs : Held s.base) (hq : quals s.base = {}) (hd : s.base ≠ self) (d : Bool) :
    unxFrom L e g self d s =
      resolve s (unrelated L e s.base && (constructible L e [.rref g] && (d || convertible L (.lref (addConst g)) e)))
        (unrelated L e s.base && (constructible L e [.rref g] && (d || convertible L (.lref (addConst g)) e))) (d && constructible L e [s.fwd]) := by
  have hx : is_same (uncvref s.deduced) self = false := by
    rw [uncvref_deduced hs hq]; simpa [is_same] using hd
  unfold unxFrom unxCopy unxMove unxValue
  rw [both, c106_convertible L hg.addConst.lref he.wf, ctor_eq L he, ctor_eq L he, hx, deduced_eq L e hs, unxUnrelated_eq L he hs, constructible_rref L e hg]
  simp only [Bool.not_false, Bool.and_true]
  congr 1 <;> simp only [Bool.and_assoc, Bool.and_comm]

/-- C123, as far as it holds: if `E` cannot be made from an `unexpected<G>` itself, an `unexpected<E>` is made from one exactly if an `E` is made from the error, as it is given; implicitly exactly if the
conversion is implicit; and the error is `E( b )`. `h1`, `h2`: of const lvalues and of rvalues the same can be made; Missing: errors of which that is not so, types that can be made of an `unexpected<G>`, and
those for which braces mean something else (`c123_copy_false`, `c123_move_false`, `c123_braces_false`). -/
theorem c123_convert_partial (L : Lang) (B : Braces) {e g self : Ty} (he : Held e) (hg : Held g) (s : Src) (hs : Held s.base) (hq : quals s.base = {})
    (hd : s.base ≠ self) (hf : Foreign L e s.base) (hb : convertible L (.lref (addConst g)) e = false → Plain B e (errTy s g))
    (h1 : constructible L e [errTy s g] = constructible L e [.rref g]) (h2 : convertible L (errTy s g) e = convertible L (.lref (addConst g)) e) (d : Bool) :
    unxMade L B e g self d s = if makes L d e (errTy s g) then some (.paren, false) else none := by
  have hun := (unrelated_eq L he hs).2 hf
  have hfw : constructible L e [s.fwd] = false := by rw [fwd_eq]; exact (hf s.lv s.const).1
  have c1 := c106_convertible L hg.addConst.lref he.wf
  have hp := unxFrom_eq L (self := self) he hg s hs hq hd d
  rw [hun, hfw, Bool.true_and, Bool.and_false, resolve_fw] at hp
  have hmk : makes L d e (errTy s g) = (constructible L e [.rref g] && (d || convertible L (.lref (addConst g)) e)) := by
    rw [makes, h1, h2]
  unfold unxMade
  rw [hp, hmk]
  by_cases k : (constructible L e [.rref g] && (d || convertible L (.lref (addConst g)) e)) = true
  · rw [k]
    rw [Bool.and_eq_true] at k
    have k1 : constructible L e [errTy s g] = true := by rw [h1]; exact k.1
    have huc : unxCopy L e g s.base false = convertible L (.lref (addConst g)) e := by
      simp [unxCopy, ctor_eq L he, constructible_rref L e hg, k.1, unxUnrelated_eq L he hs, hun, c1]
    have hum : unxMove L e g s.base false = convertible L (.lref (addConst g)) e := huc
    have fin : (if convertible L (.lref (addConst g)) e = true then direct L e (errTy s g) else braced L B e (errTy s g)) = .paren := by
      by_cases hh : convertible L (.lref (addConst g)) e = true
      · rw [if_pos hh, direct_eq L he, k1, if_pos rfl]
      · rw [if_neg hh]; exact braced_plain L B he (hb (by simpa using hh)) k1
    cases hl : s.lv <;> cases hc : s.const <;> simp only [errTy, hl, hc, Bool.or_true, Bool.or_false, Bool.false_eq_true, if_true, if_false] at fin <;>
      simp [expectedPick, hl, hc, huc, hum, fin]
  · simp only [Bool.not_eq_true] at k
    rw [k]
    simp [expectedPick]

/-- C123: if `E` can be made from an `unexpected<G>`, however that is given, then the error is made of it as a whole, explicitly, or nothing is. -/
theorem c123_whole (L : Lang) (B : Braces) {e g self : Ty} (he : Held e) (hg : Held g) (s : Src) (hs : Held s.base) (hq : quals s.base = {})
    (hd : s.base ≠ self) (hf : ¬ Foreign L e s.base) (d : Bool) :
    unxMade L B e g self d s = if d && constructible L e [s.fwd] then some (.paren, true) else none := by
  have hun : unrelated L e s.base = false := by
    by_contra k
    exact hf ((unrelated_eq L he hs).1 (by simpa using k))
  have hp := unxFrom_eq L (self := self) he hg s hs hq hd d
  rw [hun, Bool.false_and] at hp
  unfold unxMade
  rw [hp]
  by_cases k : (d && constructible L e [s.fwd]) = true
  · have k' := k
    rw [Bool.and_eq_true] at k'
    rw [k]
    cases hl : s.lv <;> cases hc : s.const <;> simp [resolve, hl, hc, direct_eq L he, k'.2]
  · simp only [Bool.not_eq_true] at k
    rw [k]
    cases hl : s.lv <;> cases hc : s.const <;> simp [resolve, hl, hc]

/-- C123: from a value an `unexpected<E>` is made only explicitly, exactly if an `E` can be, and the error is `E( a )`. -/
theorem c123_value (L : Lang) {e self : Ty} (he : Held e) (s : Src) (hs : Held s.base) (hq : quals s.base = {}) (hd : s.base ≠ self) (d : Bool) :
    unxMadeValue L e self d s = if d && constructible L e [s.fwd] then some .paren else none := by
  have hx : is_same (uncvref s.deduced) self = false := by
    rw [uncvref_deduced hs hq]; simpa [is_same] using hd
  unfold unxMadeValue unxValue
  rw [hx, ctor_eq L he, deduced_eq L e hs, direct_eq L he]
  cases d <;> by_cases k : constructible L e [s.fwd] = true <;> simp [k]

/-- C123: an `unexpected<E>` is copied and moved exactly as its error can be. -/
theorem c123_self (L : Lang) {e : Ty} (he : Held e) (s : Src) :
    unxMadeSelf L e s = if expectedPick s (constructible L e [.rref e]) (constructible L e [.lref (addConst e)]) = .none then none else some .paren := by
  unfold unxMadeSelf
  rw [resolve_fw, ctor_eq L he, ctor_eq L he]
  rcases pick_cases s (constructible L e [.rref e]) (constructible L e [.lref (addConst e)]) with ⟨h, k⟩ | ⟨h, k⟩ | h
  · rw [h]; simp [direct_eq L he, k]
  · rw [h]; simp [direct_eq L he, k]
  · rw [h]; simp

/-- C123, as far as it holds: the assignment of an `unexpected<G>` compiles exactly if an `E` can be made of its error, and then leaves `E( b )`. Missing: that it is refused otherwise
(`c123_assign_false`). -/
theorem c123_assign_partial (L : Lang) {e g self : Ty} (he : Held e) (hg : Held g) (hq : quals g = {}) (hd : g ≠ self) (s : Src) :
    unxAssign L e g self s = some (if constructible L e [errTy s g] then .paren else .bad) := by
  have a1 := c123_value L (self := self) he ⟨g, true, true⟩ hg hq hd true
  have a2 := c123_value L (self := self) he ⟨g, false, false⟩ hg hq hd true
  have f1 : Src.fwd ⟨g, true, true⟩ = .lref (addConst g) := rfl
  have f2 : Src.fwd ⟨g, false, false⟩ = .rref g := rfl
  rw [f1, Bool.true_and] at a1
  rw [f2, Bool.true_and] at a2
  unfold unxAssign
  cases hl : s.lv <;> cases hc : s.const <;> simp only [resolve, errTy, hl, hc, Bool.or_true, Bool.or_false, Bool.false_eq_true, if_true, if_false, a1, a2]
  · by_cases k : constructible L e [.rref g] = true <;> simp [k]
  all_goals by_cases k : constructible L e [.lref (addConst g)] = true <;> simp [k]

/-- C123: `make_unexpected( a )` makes an `unexpected` of the decayed type, whose error is made of `a`, exactly if it can be. Arrays and functions among the arguments. -/
theorem c123_make (L : Lang) (unx : Ty → Ty) (s : Src) (hw : Spec.wf s.deduced) (he : Held (Spec.decay s.deduced)) (hd : uncvref s.deduced ≠ unx (Spec.decay s.deduced))
    (ho : s.lv = false → object s.ty ∧ cat s.ty ≠ .void) :
    make_unexpected L unx s = (Spec.decay s.deduced, if constructible L (Spec.decay s.deduced) [s.fwd] then .paren else .bad) := by
  have hx : is_same (uncvref s.deduced) (unx (Spec.decay s.deduced)) = false := by simpa [is_same] using hd
  have hded : constructible L (Spec.decay s.deduced) [s.deduced] = constructible L (Spec.decay s.deduced) [s.fwd] := by
    generalize Spec.decay s.deduced = e
    unfold Src.deduced Src.fwd
    cases hl : s.lv
    · simp only [Bool.false_eq_true, if_false, constructible, List.mapM_cons, valueOf_obj (ho hl).1 (ho hl).2]
    · rfl
  unfold make_unexpected
  simp only [c73_decay hw, unxMadeValue, unxValue, hx, ctor_eq L he, hded, direct_eq L he, Bool.true_and, Bool.not_false, Bool.and_true]
  by_cases k : constructible L (Spec.decay s.deduced) [s.fwd] = true <;> simp [k]

/-! ### Witnesses -/

/-- A program: class 12 is made explicitly from an `int`, and from a list of them, as `vector<int>` is; class 13 explicitly from an `int`, by a constructor from `unsigned`; class 14, which
cannot be moved, implicitly from an `int`; class 16 implicitly from rvalues of class 15; class 7 explicitly from anything. -/
def langX : Lang where
  env := env1
  elides := true
  init := fun t es => match es with
    | [] => true
    | [e] => (strip e.ty = strip t && strip t ≠ tCls 14) || (is_arithmetic e.ty && is_arithmetic t) ||
        ((strip t = tCls 12 || strip t = tCls 13 || strip t = tCls 14) && strip e.ty = tInt) ||
        (strip t = tCls 16 && e.ty = tCls 15 && e.vc ≠ .lv) || strip t = tCls 7
    | _ => false
  conv := fun e t => match t with
    | .lref u => (e.ty = u && e.vc = .lv) || (strip e.ty = strip u && (quals u).c)
    | .rref u => e.vc ≠ .lv && e.ty = u
    | u => (strip e.ty = strip u && strip u ≠ tCls 14) || (is_arithmetic e.ty && is_arithmetic u) || (strip u = tCls 14 && strip e.ty = tInt) ||
        (strip u = tCls 16 && e.ty = tCls 15 && e.vc ≠ .lv)
  bind := fun _ _ => false
  assign := fun _ _ => false
  cond := fun _ _ => none
  initNo := fun _ _ => true
  dtorNo := fun _ => true
  convNo := fun _ _ => true
  assignNo := fun _ _ => true

def bracesX : Braces where
  list := fun t e => strip t = tCls 12 && strip e.ty = tInt
  narrows := fun t e => strip t = tCls 13 && strip e.ty = tInt

/-- C122 is false: `expected<vector<int>, E> v( 5 )` holds a list of one 5 and not five elements; so does an `optional<vector<int>>` made from an `optional<int>` (class 5), and an
`expected` made from an `expected<int, int>` (class 6) or an `unexpected<int>` (class 4) holds such an error. -/
theorem c122_list_false : ∃ (L : Lang) (B : Braces) (t x y z self unx : Ty), Held t ∧ Held x ∧ Movable L t ∧ (∀ lv const, makes L true t (arrives tInt lv const) = true) ∧
    (∀ lv const, expMadeValue L B t self unx true ⟨tInt, lv, const⟩ = some .list ∧ optMade L B t tInt self true ⟨x, lv, const⟩ = some .list ∧
      expMade L B t t tInt tInt self unx true ⟨y, lv, const⟩ = some (.list, .list) ∧ expMadeError L B tInt t tInt self unx true ⟨z, lv, const⟩ = some .list) :=
  ⟨langX, bracesX, tCls 12, tCls 5, tCls 6, tCls 4, tCls 9, tCls 10, held_cls _, held_cls _, by unfold Movable; decide, by decide, by decide⟩

/-- C122 is false: an `expected<T, E>` is said to be constructible from an `int`, and does not compile, if the constructor of `T` takes an `unsigned`. -/
theorem c122_narrow_false : ∃ (L : Lang) (B : Braces) (t x self unx : Ty), Held t ∧ Held x ∧ Movable L t ∧ (∀ lv const, makes L true t (arrives tInt lv const) = true) ∧
    (∀ lv const, expMadeValue L B t self unx true ⟨tInt, lv, const⟩ = some .bad ∧ optMade L B t tInt self true ⟨x, lv, const⟩ = some .bad) :=
  ⟨langX, bracesX, tCls 13, tCls 5, tCls 9, tCls 10, held_cls _, held_cls _, by unfold Movable; decide, by decide, by decide⟩

/-- C122 is false: the same for a `T` that converts from an `int` but cannot be moved. `optional<T>` takes the `int`, but not an `optional<int>`. -/
theorem c122_moved_false : ∃ (L : Lang) (B : Braces) (t x self unx : Ty), Held t ∧ Held x ∧ Plain B t (.rref tInt) ∧
    (∀ d lv const, makes L d t (arrives tInt lv const) = true) ∧
    (∀ d lv const, expMadeValue L B t self unx d ⟨tInt, lv, const⟩ = some .bad ∧ optMade L B t tInt self d ⟨x, lv, const⟩ = some .bad ∧
      optMade L B t tInt self d ⟨tInt, lv, const⟩ = some .paren) :=
  ⟨langX, bracesX, tCls 14, tCls 5, tCls 9, tCls 10, held_cls _, held_cls _, by intro x hx; cases hx; decide, by decide, by decide⟩

/-- C122 is false: an `expected<void, int>` is said to be constructible from an `unexpected<C>`, and does not compile, for a class `C` of which no `int` is made. -/
theorem c122_void_false : ∃ (L : Lang) (B : Braces) (e g : Ty), Held e ∧ Held g ∧ Movable L e ∧ (∀ lv const, constructible L e [arrives g lv const] = false) ∧
    (∀ x lv const, voidMadeError L B e g true ⟨x, lv, const⟩ = some .bad) := by
  refine ⟨langX, bracesX, tInt, tCls 5, held_fund _ (by decide), held_cls _, by unfold Movable; decide, by decide, fun x lv const => ?_⟩
  have : ∀ lv const, voidMadeError langX bracesX tInt (tCls 5) true ⟨tInt, lv, const⟩ = some .bad := by decide
  exact this lv const

/-- C123 is false: an `unexpected<E>` is said to be constructible from an lvalue `unexpected<G>`, and does not compile, if an `E` is made only from rvalues `G`. -/
theorem c123_copy_false : ∃ (L : Lang) (B : Braces) (e g x self : Ty), Held e ∧ Held g ∧ Held x ∧ x ≠ self ∧ Foreign L e x ∧
    makes L true e (.lref (addConst g)) = false ∧ makes L true e (.lref g) = false ∧
    (∀ const, unxMade L B e g self true ⟨x, true, const⟩ = some (.bad, false)) :=
  ⟨langX, bracesX, tCls 16, tCls 15, tCls 5, tCls 9, held_cls _, held_cls _, held_cls _, by decide, by unfold Foreign; decide, by decide, by decide, by decide⟩

/-- C123 is false: from an rvalue `unexpected<G>` such an `unexpected<E>` is not made implicitly, although an `E` is made implicitly of the `G`. -/
theorem c123_move_false : ∃ (L : Lang) (B : Braces) (e g x self : Ty), Held e ∧ Held g ∧ Held x ∧ x ≠ self ∧ Foreign L e x ∧ makes L false e (.rref g) = true ∧
    unxMade L B e g self false ⟨x, false, false⟩ = none ∧ unxMade L B e g self true ⟨x, false, false⟩ = some (.paren, false) :=
  ⟨langX, bracesX, tCls 16, tCls 15, tCls 5, tCls 9, held_cls _, held_cls _, held_cls _, by decide, by unfold Foreign; decide, by decide, by decide, by decide⟩

/-- C123 is false: an `unexpected<vector<int>>` made from an `unexpected<int>` (class 5) is a list of one element, made from an `int` it is not. -/
theorem c123_braces_false : ∃ (L : Lang) (B : Braces) (e g x self : Ty), Held e ∧ Held g ∧ Held x ∧ x ≠ self ∧ Foreign L e x ∧ Movable L e ∧
    (∀ lv const, unxMade L B e g self true ⟨x, lv, const⟩ = some (.list, false) ∧ unxMadeValue L e self true ⟨g, lv, const⟩ = some .paren) :=
  ⟨langX, bracesX, tCls 12, tInt, tCls 5, tCls 9, held_cls _, held_fund _ (by decide), held_cls _, by decide, by unfold Foreign; decide, by unfold Movable; decide, by decide⟩

/-- C123 is false: the assignment of any `unexpected<C>` to an `unexpected<int>` is accepted, and does not compile if no `int` is made of a `C`. -/
theorem c123_assign_false : ∃ (L : Lang) (e g self : Ty), Held e ∧ Held g ∧ (∀ lv const, constructible L e [arrives g lv const] = false) ∧
    (∀ s, unxAssign L e g self s = some .bad) := by
  refine ⟨langX, tInt, tCls 5, tCls 9, held_fund _ (by decide), held_cls _, by decide, fun s => ?_⟩
  rw [c123_assign_partial langX (held_fund _ (by decide)) (held_cls _) rfl (by decide)]
  have k1 : constructible langX tInt [.lref (addConst (tCls 5))] = false := by decide
  have k2 : constructible langX tInt [.rref (tCls 5)] = false := by decide
  obtain ⟨b, lv, const⟩ := s
  cases lv <;> cases const <;> simp [errTy, k1, k2]

/-! The hypotheses are met. -/

example : Movable langX tLong ∧ BracesOk langX bracesX tLong tInt ∧ optMade langX bracesX tLong tInt (tCls 9) false ⟨tCls 5, true, false⟩ = some .paren := by
  refine ⟨by unfold Movable; decide, ⟨fun h => absurd h (by decide), fun h => absurd h (by decide)⟩, by decide⟩
example : BracesOk langX bracesX (tCls 7) tInt ∧ convertible langX (.rref tInt) (tCls 7) = false ∧ expMadeValue langX bracesX (tCls 7) (tCls 9) (tCls 10) true ⟨tInt, false, false⟩ = some .paren ∧
    expMadeValue langX bracesX (tCls 7) (tCls 9) (tCls 10) false ⟨tInt, false, false⟩ = none := by
  refine ⟨⟨fun _ x hx => ?_, fun _ x hx => ?_⟩, by decide, by decide, by decide⟩ <;> cases hx <;> decide
example : expMade langX bracesX tLong tLong tInt tInt (tCls 9) (tCls 10) false ⟨tCls 6, false, false⟩ = some (.paren, .paren) ∧ Foreign langX tLong (tCls 6) ∧
    Plain bracesX tLong (.rref tInt) := by
  refine ⟨by decide, by unfold Foreign; decide, fun x hx => ?_⟩
  cases hx; decide
example : expMadeError langX bracesX tLong tLong tInt (tCls 9) (tCls 10) false ⟨tCls 4, true, false⟩ = some .paren ∧
    voidMadeError langX bracesX tLong tInt false ⟨tCls 4, true, false⟩ = some .paren := by decide
example : unxMade langX bracesX tLong tInt (tCls 9) false ⟨tCls 5, false, false⟩ = some (.paren, false) ∧ Foreign langX tLong (tCls 5) ∧
    constructible langX tLong [errTy ⟨tCls 5, true, false⟩ tInt] = constructible langX tLong [.rref tInt] ∧ ¬ Foreign langX (tCls 7) (tCls 5) ∧
    unxMade langX bracesX (tCls 7) tInt (tCls 9) true ⟨tCls 5, true, false⟩ = some (.paren, true) := by
  refine ⟨by decide, by unfold Foreign; decide, by decide, fun h => ?_, by decide⟩
  have := (h true true).1
  revert this; decide
example : unxMadeSelf langX (tCls 14) ⟨tCls 9, true, true⟩ = none ∧ unxMadeSelf langX (tCls 15) ⟨tCls 9, true, true⟩ = some .paren ∧
    unxAssign langX tLong tInt (tCls 9) ⟨tCls 5, true, false⟩ = some .paren := by decide
example : make_unexpected langX (fun _ => tCls 9) ⟨tInt, true, true⟩ = (tInt, .paren) ∧ make_unexpected langX (fun _ => tCls 9) ⟨tCls 14, false, false⟩ = (tCls 14, .bad) ∧
    (make_unexpected langX (fun _ => tCls 9) ⟨.arr tInt (some 3), true, true⟩).1 = .ptr {} (addConst tInt) := by decide

end Nanostl.Traits.Wrap
