import Verif.FastFloat.Slow

/-!
Specification of the texts `from_chars` reads as numbers, and what `parse_number_string` makes of any text.
-/

namespace Nanostl.FastFloat
open Nanostl.Float
open Nanostl.Str (Byte digitsValue)
open Nanostl.Ryu (IsDigit digitsValue_lt sigLen some_bind drop_get)

variable [Limb]

/-! ### Specification -/

/-- The optional exponent and its value: it may be there with `scientific`, and must be there without `fixed`. -/
inductive ExpText (o : Options) : List Byte → Int → Prop where
  | none (h : o.scientific = true → o.fixed = true) : ExpText o [] 0
  | some {x ds : List Byte} {neg : Bool} (h : o.scientific = true) (hx : IsExp x neg ds) : ExpText o x (if neg then -(digitsValue ds : Int) else digitsValue ds)

/-- A number `c * 10^k` without sign: digits with at most one point, at least one digit, the exponent. -/
def IsBody (o : Options) (t : List Byte) (c : Nat) (k : Int) : Prop :=
  ∃ a f b x v, t = a ++ (f ++ x) ∧ (∀ d ∈ a ++ b, IsDigit d) ∧ a ++ b ≠ [] ∧ FracText o.decimalPoint f b ∧ ExpText o x v ∧ c = digitsValue (a ++ b) ∧ k = v - b.length

/-- The number `± c * 10^k`. -/
def IsNumber (o : Options) (t : List Byte) (neg : Bool) (c : Nat) (k : Int) : Prop := ∃ u, t = (if neg then [45] else []) ++ u ∧ IsBody o u c k

/-- A decimal point that cannot be mistaken for another part of a number. -/
structure PointOK (o : Options) : Prop where
  digit : ¬IsDigit o.decimalPoint
  minus : o.decimalPoint ≠ 45
  lower : o.decimalPoint ≠ 101
  upper : o.decimalPoint ≠ 69

/-! ### Prefixes -/

omit [Limb] in
/-- A run of digits and something else within a text that begins with a longest run. -/
theorem run_prefix {a u a' u' : List Byte} (h : a' ++ u' <+: a ++ u) (ha : ∀ c ∈ a, IsDigit c) (ha' : ∀ c ∈ a', IsDigit c) (hu : Stops u) (hu' : Stops u') :
    (a' = a ∧ u' <+: u) ∨ (a'.length < a.length ∧ u' = []) := by
  induction a generalizing a' with
  | nil =>
    left
    cases a' with
    | nil => exact ⟨rfl, h⟩
    | cons c a' =>
      exfalso
      obtain ⟨t, ht⟩ := h
      rw [List.nil_append] at ht
      rw [← ht, List.cons_append, List.cons_append, cons_stops] at hu
      exact hu (ha' c List.mem_cons_self)
  | cons d a ih =>
    cases a' with
    | nil =>
      cases u' with
      | nil => right; simp
      | cons c u' =>
        exfalso
        obtain ⟨t, ht⟩ := h
        simp only [List.nil_append, List.cons_append, List.cons.injEq] at ht
        rw [cons_stops, ht.1] at hu'
        exact hu' (ha d List.mem_cons_self)
    | cons c a' =>
      rw [List.cons_append, List.cons_append, List.cons_prefix_cons] at h
      obtain ⟨rfl, h⟩ := h
      rcases ih h (fun x hx => ha x (List.mem_cons_of_mem _ hx)) (fun x hx => ha' x (List.mem_cons_of_mem _ hx)) with ⟨rfl, h2⟩ | ⟨h1, h2⟩
      · exact Or.inl ⟨rfl, h2⟩
      · exact Or.inr ⟨by simpa using h1, h2⟩

omit [Limb] in
theorem isExp_cons {x ds : List Byte} {neg : Bool} (h : IsExp x neg ds) : ∃ e y, x = e :: y ∧ (e = 101 ∨ e = 69) := by
  obtain ⟨⟨e, sg, rfl, he, -⟩, -, -⟩ := h
  exact ⟨e, _, rfl, he⟩

omit [Limb] in
theorem isExp_stops {x ds : List Byte} {neg : Bool} (h : IsExp x neg ds) (y : List Byte) : Stops (x ++ y) := by
  obtain ⟨e, z, rfl, he⟩ := isExp_cons h
  rw [List.cons_append, cons_stops]
  rcases he with rfl | rfl <;> decide

omit [Limb] in
theorem expText_stops {o : Options} {x : List Byte} {v : Int} (h : ExpText o x v) : Stops x := by
  cases h with
  | none _ => simp [Stops]
  | some _ hx => have := isExp_stops hx []; rwa [List.append_nil] at this

omit [Limb] in
/-- A number within a text. -/
theorem body_prefix {o : Options} (ok : PointOK o) {t a f b r a' f' b' x' : List Byte} (P : Parts o.decimalPoint t a f b r) (hp : a' ++ (f' ++ x') <+: t)
    (hd' : ∀ c ∈ a' ++ b', IsDigit c) (hf' : FracText o.decimalPoint f' b') (hx' : Stops x') (hxe : x' ≠ [] → ∃ e y, x' = e :: y ∧ (e = 101 ∨ e = 69)) :
    (x' = [] ∧ (a' ++ f').length ≤ (a ++ f).length ∧ ((a' ++ f').length = (a ++ f).length → a' = a ∧ b' = b)) ∨ (x' ≠ [] ∧ a' = a ∧ f' = f ∧ b' = b ∧ x' <+: r) := by
  have hda : ∀ c ∈ a, IsDigit c := fun c hc => P.digits c (List.mem_append_left _ hc)
  have hdb : ∀ c ∈ b, IsDigit c := fun c hc => P.digits c (List.mem_append_right _ hc)
  have hda' : ∀ c ∈ a', IsDigit c := fun c hc => hd' c (List.mem_append_left _ hc)
  have hdb' : ∀ c ∈ b', IsDigit c := fun c hc => hd' c (List.mem_append_right _ hc)
  have hst' : Stops (f' ++ x') := by
    rcases hf' with ⟨rfl, rfl⟩ | rfl
    · exact hx'
    · rw [List.cons_append, cons_stops]; exact ok.digit
  rw [P.text] at hp
  rcases run_prefix hp hda hda' (stops_mid ok.digit P.frac P.stop) hst' with ⟨rfl, h2⟩ | ⟨h1, h2⟩
  · rcases hf' with ⟨rfl, rfl⟩ | rfl
    · rw [List.nil_append] at h2
      by_cases hxn : x' = []
      · left
        refine ⟨hxn, by simp, fun h => ⟨rfl, ?_⟩⟩
        have : f = [] := by
          simp only [List.length_append, List.length_nil] at h
          exact List.length_eq_zero_iff.1 (by omega)
        rcases P.frac with ⟨-, h⟩ | h
        · exact h.symm
        · rw [this] at h; simp at h
      · right
        obtain ⟨e, y, rfl, he⟩ := hxe hxn
        rcases P.frac with ⟨rfl, rfl⟩ | rfl
        · exact ⟨hxn, rfl, rfl, rfl, h2⟩
        · exfalso
          rw [List.cons_append, List.cons_prefix_cons] at h2
          rcases he with rfl | rfl
          · exact ok.lower h2.1.symm
          · exact ok.upper h2.1.symm
    · rcases P.frac with ⟨rfl, rfl⟩ | rfl
      · exfalso
        rcases P.stop with ⟨-, -, h⟩ | ⟨h, -⟩
        · apply h
          obtain ⟨z, hz⟩ := h2
          rw [List.nil_append] at hz
          rw [← hz]; rfl
        · exact h rfl
      · rw [List.cons_append, List.cons_append, List.cons_prefix_cons] at h2
        have hst : Stops r := by
          rcases P.stop with ⟨h, -⟩ | ⟨-, h⟩
          · simp at h
          · exact h
        rcases run_prefix h2.2 hdb hdb' hst hx' with ⟨rfl, h3⟩ | ⟨h3, h4⟩
        · by_cases hxn : x' = []
          · exact Or.inl ⟨hxn, le_refl _, fun _ => ⟨rfl, rfl⟩⟩
          · exact Or.inr ⟨hxn, rfl, rfl, rfl, h3⟩
        · left
          refine ⟨h4, ?_, fun h => ?_⟩
          · simp only [List.length_append, List.length_cons]; omega
          · simp only [List.length_append, List.length_cons] at h; omega
  · rw [List.append_eq_nil_iff] at h2
    left
    refine ⟨h2.2, ?_, fun h => ?_⟩
    · rw [h2.1, List.append_nil, List.length_append]; omega
    · rw [h2.1, List.append_nil, List.length_append] at h; omega

omit [Limb] in
/-- The exponent within a text. -/
theorem exp_prefix {x ds x' ds' rest : List Byte} {neg neg' : Bool} (hx : IsExp x neg ds) (hx' : IsExp x' neg' ds') (hr : Stops rest) (hp : x' <+: x ++ rest) :
    x'.length ≤ x.length ∧ (x'.length = x.length → neg' = neg ∧ ds' = ds) := by
  obtain ⟨⟨e, sg, rfl, he, hsg⟩, hd, hne⟩ := hx
  obtain ⟨⟨e', sg', rfl, he', hsg'⟩, hd', hne'⟩ := hx'
  rw [List.cons_append, List.cons_prefix_cons] at hp
  obtain ⟨rfl, hp⟩ := hp
  obtain ⟨c, ds1, rfl⟩ := List.exists_cons_of_ne_nil hne
  obtain ⟨c', ds1', rfl⟩ := List.exists_cons_of_ne_nil hne'
  have hc := hd c List.mem_cons_self
  have hc' := hd' c' List.mem_cons_self
  have d43 : ¬IsDigit 43 := by decide
  have d45 : ¬IsDigit 45 := by decide
  have key : sg' = sg ∧ neg' = neg := by
    rcases hsg with ⟨rfl, rfl | rfl⟩ | ⟨rfl, rfl⟩ <;> rcases hsg' with ⟨rfl, rfl | rfl⟩ | ⟨rfl, rfl⟩ <;>
      simp only [List.nil_append, List.cons_append, List.cons_prefix_cons] at hp <;> obtain ⟨h1, -⟩ := hp <;>
      first
      | exact ⟨rfl, rfl⟩
      | (exfalso; rw [h1] at hc'; exact absurd hc' (by assumption))
      | (exfalso; rw [← h1] at hc; exact absurd hc (by assumption))
      | (exfalso; revert h1; decide)
  obtain ⟨rfl, rfl⟩ := key
  rw [List.append_assoc, List.prefix_append_right_inj] at hp
  have hp' : (c' :: ds1') ++ [] <+: (c :: ds1) ++ rest := by rw [List.append_nil]; exact hp
  rcases run_prefix hp' hd hd' hr (by simp [Stops]) with ⟨h, -⟩ | ⟨h, -⟩
  · exact ⟨by rw [h], fun _ => ⟨rfl, h⟩⟩
  · refine ⟨?_, fun h' => ?_⟩
    · simp only [List.length_cons, List.length_append] at h ⊢; omega
    · simp only [List.length_cons, List.length_append] at h h'; omega

/-- The exponent that was meant and the one that is used. -/
def SatInt (v v' : Int) : Prop := ∃ x y : Nat, Sat x y ∧ ((v = x ∧ v' = y) ∨ (v = -(x : Int) ∧ v' = -(y : Int)))

omit [Limb] in
/-- The digits of a text are read: either no beginning of it is a number, or the longest one that is. -/
theorem body_spec {o : Options} (ok : PointOK o) {s : List Byte} {p : Nat} {neg : Bool} (hp : p ≤ s.length) :
    (parseDigits s o neg p = some none ∧ ∀ t c k, t <+: s.drop p → ¬IsBody o t c k) ∨
    ∃ pns n a b v v', parseDigits s o neg p = some (some pns) ∧ pns.lastmatch = p + n ∧ p + n ≤ s.length ∧ pns.negative = neg ∧ Reads s pns a b (v' - b.length) ∧
      SatInt v v' ∧ (a ++ b).length ≤ s.length ∧ IsBody o ((s.drop p).take n) (digitsValue (a ++ b)) (v - b.length) ∧
      ∀ t c k, t <+: s.drop p → IsBody o t c k → t.length ≤ n ∧ (t.length = n → c = digitsValue (a ++ b) ∧ k = v - b.length) := by
  obtain ⟨a, f, b, r, P⟩ := parts_exist o.decimalPoint (s.drop p)
  have hlen := congrArg List.length P.text
  rw [List.length_drop, List.length_append, List.length_append] at hlen
  obtain ⟨p1, p2, p3⟩ := parseDigits_spec (neg := neg) hp ok.digit P
  have hsr : s.drop (p + a.length + f.length) = r := by
    rw [← List.drop_drop, ← List.drop_drop, P.text, List.drop_left, List.drop_left]
  have hablen : (a ++ b).length ≤ s.length := by
    have : b.length ≤ f.length := by
      rcases P.frac with ⟨rfl, rfl⟩ | rfl <;> simp
    rw [List.length_append]; omega
  by_cases hab : a ++ b = []
  · left
    refine ⟨p1 hab, ?_⟩
    rintro t c k ht ⟨a', f', b', x', v, rfl, hd', hne', hf', hx', -⟩
    have hxe : x' ≠ [] → ∃ e y, x' = e :: y ∧ (e = 101 ∨ e = 69) := by
      intro hxn
      cases hx' with
      | none _ => exact absurd rfl hxn
      | some _ hx => exact isExp_cons hx
    rw [List.append_eq_nil_iff] at hab
    obtain ⟨rfl, rfl⟩ := hab
    rcases body_prefix ok P ht hd' hf' (expText_stops hx') hxe with ⟨-, h1, -⟩ | ⟨-, rfl, -, rfl, -⟩
    · apply hne'
      have hfl : f.length ≤ 1 := by rcases P.frac with ⟨rfl, -⟩ | rfl <;> simp
      rw [List.nil_append, List.length_append] at h1
      rcases hf' with ⟨rfl, rfl⟩ | rfl
      · -- digits without a point where the text has none
        rcases P.frac with ⟨rfl, -⟩ | rfl
        · simp only [List.length_nil] at h1
          rw [List.append_nil]; exact List.length_eq_zero_iff.1 (by omega)
        · cases a' with
          | nil => rfl
          | cons c a' =>
            exfalso
            obtain ⟨z, hz⟩ := ht
            rw [P.text] at hz
            simp only [List.nil_append, List.cons_append, List.cons.injEq] at hz
            exact ok.digit (by rw [← hz.1]; exact hd' c (by simp))
      · rw [List.length_cons] at h1
        have h2 : a' = [] := List.length_eq_zero_iff.1 (by omega)
        have h3 : b' = [] := List.length_eq_zero_iff.1 (by omega)
        rw [h2, h3]; rfl
    · exact hne' rfl
  · -- the text up to the exponent is a number
    have hmid : ∀ n, n = a.length + f.length → (s.drop p).take n = a ++ (f ++ []) := by
      rintro n rfl
      rw [P.text, ← List.append_assoc, List.take_left' (by rw [List.length_append]), List.append_nil]
    have plain : (o.scientific = true → o.fixed = true) → (o.scientific = true → ∀ x neg ds rest, r = x ++ rest → ¬IsExp x neg ds) →
        expPart s o (p + a.length + f.length) = some (some (p + a.length + f.length, 0)) →
        ∃ pns n a b v v', parseDigits s o neg p = some (some pns) ∧ pns.lastmatch = p + n ∧ p + n ≤ s.length ∧ pns.negative = neg ∧ Reads s pns a b (v' - b.length) ∧
          SatInt v v' ∧ (a ++ b).length ≤ s.length ∧ IsBody o ((s.drop p).take n) (digitsValue (a ++ b)) (v - b.length) ∧
          ∀ t c k, t <+: s.drop p → IsBody o t c k → t.length ≤ n ∧ (t.length = n → c = digitsValue (a ++ b) ∧ k = v - b.length) := by
      intro h1 h2 h3
      obtain ⟨pns, g1, g2, g3, g4⟩ := p3 hab _ _ h3
      refine ⟨pns, a.length + f.length, a, b, 0, 0, g1, by omega, by omega, g3, g4, ⟨0, 0, Or.inl rfl, Or.inl ⟨rfl, rfl⟩⟩, hablen, ?_, ?_⟩
      · exact ⟨a, f, b, [], 0, hmid _ rfl, P.digits, hab, P.frac, .none h1, rfl, rfl⟩
      · rintro t c k ht ⟨a', f', b', x', v, rfl, hd', hne', hf', hx', rfl, rfl⟩
        cases hx' with
        | none _ =>
          rcases body_prefix ok P ht hd' hf' (by simp [Stops]) (fun h => absurd rfl h) with ⟨-, q1, q2⟩ | ⟨q1, -⟩
          · rw [List.append_nil, ← List.length_append]
            refine ⟨q1, fun h => ?_⟩
            obtain ⟨rfl, rfl⟩ := q2 h
            exact ⟨rfl, rfl⟩
          · exact absurd rfl q1
        | some hsc hx =>
          exfalso
          have hxn : x' ≠ [] := by obtain ⟨e, y, rfl, -⟩ := isExp_cons hx; simp
          have hst := isExp_stops hx []
          rw [List.append_nil] at hst
          rcases body_prefix ok P ht hd' hf' hst (fun _ => isExp_cons hx) with ⟨q1, -⟩ | ⟨-, -, -, -, q1⟩
          · exact hxn q1
          · obtain ⟨z, hz⟩ := q1
            exact h2 hsc _ _ _ z hz.symm hx
    by_cases hsc : o.scientific = true
    · rcases exp_cases r with ⟨x, en, ds, rest, hr, hx, hst⟩ | hno
      · right
        have he := expPart_some (s := s) (o := o) (p := p + a.length + f.length) (by omega) (by rw [hsr, hr]) hx hst hsc
        obtain ⟨pns, g1, g2, g3, g4⟩ := p3 hab _ _ he
        have hrl : r.length = x.length + rest.length := by rw [hr, List.length_append]
        refine ⟨pns, a.length + f.length + x.length, a, b, if en then -(digitsValue ds : Int) else digitsValue ds, _, g1, by omega, by omega, g3, g4, ?_, hablen, ?_, ?_⟩
        · refine ⟨digitsValue ds, ds.foldl satStep 0, by simpa using satStep_spec ds 0 0 (Or.inl rfl), ?_⟩
          cases en
          · exact Or.inl ⟨rfl, rfl⟩
          · exact Or.inr ⟨rfl, rfl⟩
        · refine ⟨a, f, b, x, _, ?_, P.digits, hab, P.frac, .some hsc hx, rfl, rfl⟩
          rw [P.text, hr, ← List.append_assoc, ← List.append_assoc, List.take_left' (by simp only [List.length_append]), List.append_assoc]
        · rintro t c k ht ⟨a', f', b', x', v, rfl, hd', hne', hf', hx', rfl, rfl⟩
          cases hx' with
          | none _ =>
            rcases body_prefix ok P ht hd' hf' (by simp [Stops]) (fun h => absurd rfl h) with ⟨-, q1, -⟩ | ⟨q1, -⟩
            · obtain ⟨e, y, rfl, -⟩ := isExp_cons hx
              simp only [List.length_append, List.length_nil, List.length_cons] at q1 ⊢
              exact ⟨by omega, fun h => by omega⟩
            · exact absurd rfl q1
          | some _ hx2 =>
            have hxn : x' ≠ [] := by obtain ⟨e, y, rfl, -⟩ := isExp_cons hx2; simp
            have hst' := isExp_stops hx2 []
            rw [List.append_nil] at hst'
            rcases body_prefix ok P ht hd' hf' hst' (fun _ => isExp_cons hx2) with ⟨q1, -⟩ | ⟨-, rfl, rfl, rfl, q1⟩
            · exact absurd q1 hxn
            · rw [hr] at q1
              obtain ⟨z1, z2⟩ := exp_prefix hx hx2 hst q1
              simp only [List.length_append]
              refine ⟨by omega, fun h => ?_⟩
              obtain ⟨rfl, rfl⟩ := z2 (by omega)
              exact ⟨trivial, rfl⟩
      · have he := expPart_none (s := s) (o := o) (p := p + a.length + f.length) (by omega) hsr hno hsc
        by_cases hfx : o.fixed = true
        · right
          rw [if_pos hfx] at he
          exact plain (fun _ => hfx) (fun _ => hno) he
        · left
          rw [if_neg hfx] at he
          refine ⟨p2 hab he, ?_⟩
          rintro t c k ht ⟨a', f', b', x', v, rfl, hd', hne', hf', hx', -⟩
          cases hx' with
          | none h => exact hfx (h hsc)
          | some _ hx =>
            have hxn : x' ≠ [] := by obtain ⟨e, y, rfl, -⟩ := isExp_cons hx; simp
            have hst := isExp_stops hx []
            rw [List.append_nil] at hst
            rcases body_prefix ok P ht hd' hf' hst (fun _ => isExp_cons hx) with ⟨q1, -⟩ | ⟨-, -, -, -, q1⟩
            · exact hxn q1
            · obtain ⟨z, hz⟩ := q1
              exact hno _ _ _ z hz.symm hx
    · right
      exact plain (fun h => absurd h hsc) (fun h => absurd h hsc) (expPart_off (by simpa using hsc))

omit [Limb] in
theorem isBody_head {o : Options} {t : List Byte} {c : Nat} {k : Int} (h : IsBody o t c k) : ∃ d u, t = d :: u ∧ (IsDigit d ∨ d = o.decimalPoint) := by
  obtain ⟨a, f, b, x, v, rfl, hd, hne, hf, -⟩ := h
  cases a with
  | cons d a => exact ⟨d, _, rfl, Or.inl (hd d (by simp))⟩
  | nil =>
    rcases hf with ⟨rfl, rfl⟩ | rfl
    · exact absurd rfl hne
    · exact ⟨o.decimalPoint, _, rfl, Or.inr rfl⟩

omit [Limb] in
/-- Signs of numbers within a text. -/
theorem number_sign {o : Options} (ok : PointOK o) {s t : List Byte} {neg neg' : Bool} {c : Nat} {k : Int} {body : List Byte}
    (hs : s = (if neg then [45] else []) ++ body) (hb : neg = false → body.head? ≠ some 45) (ht : t <+: s) (h : IsNumber o t neg' c k) :
    neg' = neg ∧ ∃ u, t = (if neg then [45] else []) ++ u ∧ u <+: body ∧ IsBody o u c k := by
  obtain ⟨u, rfl, hu⟩ := h
  obtain ⟨d, w, hd, hdd⟩ := isBody_head hu
  have hd45 : d ≠ 45 := by
    rintro rfl
    rcases hdd with h | h
    · revert h; decide
    · exact ok.minus h.symm
  have key : neg' = neg := by
    rw [hs] at ht
    cases neg <;> cases neg'
    · rfl
    · exfalso
      simp only [Bool.false_eq_true, if_false, if_true, List.nil_append, List.cons_append] at ht
      obtain ⟨z, hz⟩ := ht
      apply hb rfl
      rw [← hz]; rfl
    · exfalso
      simp only [Bool.false_eq_true, if_false, if_true, List.nil_append, List.cons_append] at ht
      rw [hd, List.cons_prefix_cons] at ht
      exact hd45 ht.1
    · rfl
  subst key
  refine ⟨rfl, u, rfl, ?_, hu⟩
  rw [hs] at ht
  exact (List.prefix_append_right_inj _).1 ht

omit [Limb] in
/-- `parse_number_string`: either no beginning of the text is a number, or the longest one that is has been read. -/
theorem parse_spec {o : Options} (ok : PointOK o) {s : List Byte} (hs : s ≠ []) :
    (parseNumberString s o = some none ∧ ∀ t neg c k, t <+: s → ¬IsNumber o t neg c k) ∨
    ∃ pns a b v v', parseNumberString s o = some (some pns) ∧ pns.lastmatch ≤ s.length ∧ Reads s pns a b (v' - b.length) ∧
      SatInt v v' ∧ (a ++ b).length ≤ s.length ∧ IsNumber o (s.take pns.lastmatch) pns.negative (digitsValue (a ++ b)) (v - b.length) ∧
      ∀ t neg c k, t <+: s → IsNumber o t neg c k →
        t.length ≤ pns.lastmatch ∧ (t.length = pns.lastmatch → neg = pns.negative ∧ c = digitsValue (a ++ b) ∧ k = v - b.length) := by
  obtain ⟨c0, rest, rfl⟩ := List.exists_cons_of_ne_nil hs
  -- both signs
  have go : ∀ (neg : Bool) (body : List Byte) (p : Nat), c0 :: rest = (if neg then [45] else []) ++ body → (neg = false → body.head? ≠ some 45) → p = (if neg then 1 else 0) →
      parseNumberString (c0 :: rest) o = parseDigits (c0 :: rest) o neg p ∨ (parseNumberString (c0 :: rest) o = some none ∧ ∀ d u, body = d :: u → ¬IsDigit d ∧ d ≠ o.decimalPoint) →
      (parseNumberString (c0 :: rest) o = some none ∧ ∀ t neg c k, t <+: (c0 :: rest) → ¬IsNumber o t neg c k) ∨
      ∃ pns a b v v', parseNumberString (c0 :: rest) o = some (some pns) ∧ pns.lastmatch ≤ (c0 :: rest).length ∧ Reads (c0 :: rest) pns a b (v' - b.length) ∧
        SatInt v v' ∧ (a ++ b).length ≤ (c0 :: rest).length ∧ IsNumber o ((c0 :: rest).take pns.lastmatch) pns.negative (digitsValue (a ++ b)) (v - b.length) ∧
        ∀ t neg c k, t <+: (c0 :: rest) → IsNumber o t neg c k →
          t.length ≤ pns.lastmatch ∧ (t.length = pns.lastmatch → neg = pns.negative ∧ c = digitsValue (a ++ b) ∧ k = v - b.length) := by
    intro neg body p hbody hb hp hcase
    have hsl : (if neg then [45] else ([] : List Byte)).length = p := by rw [hp]; cases neg <;> rfl
    have hple : p ≤ (c0 :: rest).length := by rw [hbody, List.length_append, hsl]; omega
    have hdrop : (c0 :: rest).drop p = body := by rw [hbody, List.drop_left' hsl]
    rcases hcase with hE | ⟨hE, hno⟩
    · rcases body_spec (s := c0 :: rest) ok (neg := neg) hple with ⟨h1, h2⟩ | ⟨pns, n, a, b, v, v', h1, h2, h3, h4, h5, h6, h6', h7, h8⟩
      · left
        refine ⟨hE.trans h1, fun t neg' c k ht hn => ?_⟩
        obtain ⟨-, u, -, hu, hB⟩ := number_sign ok hbody hb ht hn
        exact h2 u c k (by rw [hdrop]; exact hu) hB
      · right
        refine ⟨pns, a, b, v, v', hE.trans h1, by omega, h5, h6, h6', ?_, ?_⟩
        · refine ⟨_, ?_, h7⟩
          rw [h2, h4, List.take_add, hdrop]
          congr 1
          rw [hbody, List.take_left' hsl]
        · intro t neg' c k ht hn
          obtain ⟨rfl, u, rfl, hu, hB⟩ := number_sign ok hbody hb ht hn
          obtain ⟨q1, q2⟩ := h8 u c k (by rw [hdrop]; exact hu) hB
          rw [h2, List.length_append, hsl]
          exact ⟨by omega, fun h => ⟨h4.symm, q2 (by omega)⟩⟩
    · left
      refine ⟨hE, fun t neg' c k ht hn => ?_⟩
      obtain ⟨-, u, -, ⟨z, hz⟩, hB⟩ := number_sign ok hbody hb ht hn
      obtain ⟨d, w, rfl, hd⟩ := isBody_head hB
      have := hno d (w ++ z) (by rw [← hz]; rfl)
      rcases hd with h | h
      · exact this.1 h
      · exact this.2 h
  by_cases hc : c0 = 45
  · subst hc
    refine go true rest 1 rfl (fun h => absurd h (by decide)) rfl ?_
    have hp : parseNumberString (45 :: rest) o = (if 1 = (45 :: rest).length then pure none else do
      let d ← (45 :: rest)[1]?
      if !isInteger d && d != o.decimalPoint then pure none else parseDigits (45 :: rest) o true 1) := rfl
    rw [hp]
    cases rest with
    | nil => right; exact ⟨rfl, fun d u h => by simp at h⟩
    | cons d rest =>
      rw [if_neg (by simp)]
      rw [show (45 :: d :: rest)[1]? = some d from rfl, some_bind]
      by_cases h : (!isInteger d && d != o.decimalPoint) = true
      · right
        rw [if_pos h]
        refine ⟨rfl, fun d' u hd => ?_⟩
        rw [List.cons.injEq] at hd
        rw [← hd.1]
        simp only [Bool.and_eq_true, Bool.not_eq_true', bne_iff_ne, ne_eq] at h
        exact ⟨fun hh => by rw [isInteger_iff.2 hh] at h; exact absurd h.1 (by decide), h.2⟩
      · left
        rw [if_neg h]
  · refine go false (c0 :: rest) 0 rfl (fun _ h => hc (by simpa using h)) rfl (Or.inl ?_)
    have hp : parseNumberString (c0 :: rest) o = (if c0 = 45 then (if 1 = (c0 :: rest).length then pure none else do
      let d ← (c0 :: rest)[1]?
      if !isInteger d && d != o.decimalPoint then pure none else parseDigits (c0 :: rest) o true 1) else parseDigits (c0 :: rest) o false 0) := rfl
    rw [hp, if_neg hc]

/-! ### The exponent that was not read to its end -/

omit [Limb] in
/-- A decimal below the range. -/
theorem dec_tiny {b : Bin} (g : FastOK b) {N n : Nat} {k : Int} (hN : N < 10 ^ n) (hk : k + n < b.smallestPowerOfTen) : DecNearest b.fmt N k 0 := by
  obtain ⟨t, ht⟩ := dec_exists g.good.mb N k
  have h1 : DecNearest b.fmt (1 * 10 ^ n) k 0 := decNearest_shift.2 (under_spec g.toBinOK (w := 1) (by decide) hk)
  have := dec_mono g.good.mb (by omega) ht h1
  rwa [show t = 0 by omega] at ht

omit [Limb] in
/-- The exponent that is used gives the same number, provided that the text is not longer than what such an exponent can compensate. -/
theorem sat_transfer {b : Bin} (g : FastOK b) (hlo : -342 ≤ b.smallestPowerOfTen) (hhi : b.largestPowerOfTen ≤ 308) {N n m : Nat} {v v' : Int} (hN : N < 10 ^ n)
    (hmn : m ≤ n) (hn : n + 343 ≤ 2 ^ 28) (hv : SatInt v v') {t : Nat} (ht : DecNearest b.fmt N (v' - m) t) :
    ∃ u, DecNearest b.fmt N (v - m) u ∧ min u b.fmt.inf = min t b.fmt.inf := by
  obtain ⟨x, y, hs | ⟨hs1, hs2⟩, hxy⟩ := hv
  · subst hs
    have : v = v' := by rcases hxy with ⟨h1, h2⟩ | ⟨h1, h2⟩ <;> rw [h1, h2]
    exact ⟨t, by rw [this]; exact ht, rfl⟩
  · rcases hxy with ⟨rfl, rfl⟩ | ⟨rfl, rfl⟩
    · rcases Nat.eq_zero_or_pos N with rfl | h0
      · have : t = 0 := by
          by_contra hc
          exact dec_zero (by omega) ht
        subst this
        exact ⟨0, dec_zero_nearest _ _, rfl⟩
      · obtain ⟨u1, hu1, hi1⟩ := over_spec g.toBinOK (q := (y : Int) - m) (w := N) h0 (by omega)
        obtain ⟨u2, hu2, hi2⟩ := over_spec g.toBinOK (q := (x : Int) - m) (w := N) h0 (by omega)
        have := dec_mono g.good.mb (le_refl N) hu1 ht
        exact ⟨u2, hu2, by omega⟩
    · have h1 := dec_tiny g hN (k := -(y : Int) - m) (by omega)
      have h2 := dec_tiny g hN (k := -(x : Int) - m) (by omega)
      have := dec_mono g.good.mb (le_refl N) ht h1
      exact ⟨0, h2, by omega⟩

end Nanostl.FastFloat
