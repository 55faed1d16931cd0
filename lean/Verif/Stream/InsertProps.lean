import Verif.Stream.Insert

/-! C119: what an inserted value prints. -/

namespace Nanostl.Stream.Insert

open Nanostl.Traits
open Nanostl.Traits.Spec (cat quals wf)

/-! ### Specification -/

/-- How `std::ostream` prints a value. -/
inductive Kind where
  | character | decimal | real | text | address | truth | null | contents | nothing
  deriving DecidableEq, Repr

def kindF : Fund → Kind
  | .void => .nothing
  | .nullptr => .null
  | .char | .schar | .uchar => .character
  | .float | .double | .ldouble => .real
  | _ => .decimal

/-- Pointers: to characters text, to a stream buffer its contents, to functions and volatile objects whether they are null, to other objects their address. -/
def kindPtr (P : Prog) (u : Ty) : Kind :=
  if cat u = .function ∨ (quals u).v = true then .truth
  else match u with
    | .base _ (.fund .char) | .base _ (.fund .schar) | .base _ (.fund .uchar) => .text
    | .base q (.cls n) => if q = {} ∧ (n = P.buf ∨ P.derived n = true) then .contents else .address
    | _ => .address

/-- An unscoped enumeration prints as the type it promotes to first; classes other than `nullptr_t` are not considered. -/
def kind (P : Prog) : Ty → Kind
  | .base _ (.fund f) => kindF f
  | .base _ (.enum n) => match P.enumTo n with
    | some (f :: _) => kindF f
    | _ => .nothing
  | .base _ (.cls 0) => .null
  | .ptr _ u => kindPtr P u
  | .mem .. => .truth
  | _ => .nothing

/-- The values of an integer type. -/
def Value (e : Env) (f : Fund) (v : Int) : Prop :=
  if f = .bool then v = 0 ∨ v = 1
  else if f.signed e then -2 ^ (e.width f - 1) ≤ v ∧ v < 2 ^ (e.width f - 1) else 0 ≤ v ∧ v < 2 ^ e.width f

/-- `f` is the type the values have: the type itself, or the first one an enumeration promotes to. -/
def Underlying (P : Prog) (t : Ty) (f : Fund) : Prop :=
  (∃ q, t = .base q (.fund f)) ∨ ∃ q n l, t = .base q (.enum n) ∧ P.enumTo n = some (f :: l)

/-- `o` prints a value of type `t` (a decayed one) as that kind. Integers reach `to_string` with their value. -/
def Right (P : Prog) (t : Ty) (o : Out) : Kind → Prop
  | .decimal => ∃ f via g, Underlying P t f ∧ o = .number via g ∧ (g = .int ∨ g = .llong) ∧
      ∀ v, Value P.env f v → g.cast P.env (via.cast P.env v) = v
  | .real => ∃ f, Underlying P t f ∧ o = .number f f
  | .text => o = .cstr
  | .truth => o = .number .bool .int
  | .null => o = .null
  | _ => False

/-- Widths as on the platforms there are, and enumerations as the language has them. -/
structure Usual (P : Prog) : Prop where
  c : P.env.width .char = 8 ∧ P.env.width .schar = 8 ∧ P.env.width .uchar = 8 ∧ P.env.width .char8 = 8
  s : P.env.width .short = 16 ∧ P.env.width .ushort = 16 ∧ P.env.width .char16 = 16
  i : P.env.width .int = 32 ∧ P.env.width .uint = 32 ∧ P.env.width .char32 = 32
  w : P.env.width .wchar = 16 ∨ P.env.width .wchar = 32
  l : (P.env.width .long = 32 ∧ P.env.width .ulong = 32) ∨ (P.env.width .long = 64 ∧ P.env.width .ulong = 64)
  ll : P.env.width .llong = 64 ∧ P.env.width .ullong = 64
  x : P.env.width .i128 = 128 ∧ P.env.width .u128 = 128
  enum : ∀ n l, P.enumTo n = some l → ∃ f, Spec.cat (.base {} (.fund f)) = .integral ∧ l = f :: (promote P.env f).toList

/-- The program compiles and links. -/
def Usable (o : Out) : Prop := o ≠ .refused ∧ o ≠ .unlinked

/-! ### Proofs -/

/-- The promotions, that of `wchar_t` being `w`. -/
def table (w : Fund) : Fund → Option Fund
  | .bool | .char | .schar | .uchar | .short | .ushort | .char8 | .char16 => some .int
  | .wchar => some w
  | .char32 => some .uint
  | .float => some .double
  | _ => none

theorem promote_usual {P : Prog} (h : Usual P) : ∃ w ∈ [Fund.int, .uint], promote P.env = table w := by
  obtain ⟨⟨c1, c2, c3, c4⟩, ⟨s1, s2, s3⟩, ⟨i1, i2, i3⟩, hw, _, _, _, _⟩ := h
  have other : ∀ w, promote P.env .wchar = some w → promote P.env = table w := by
    intro w hw
    funext f
    cases f
    case wchar => exact hw
    all_goals simp [promote, table, fits, Fund.signed, c1, c2, c3, c4, s1, s2, s3, i1, i2, i3]
  rcases hw with hw | hw <;> rcases hs : P.env.wcharSigned
  · exact ⟨.int, by simp, other _ (by simp [promote, fits, Fund.signed, hs, hw, i1])⟩
  · exact ⟨.int, by simp, other _ (by simp [promote, fits, Fund.signed, hs, hw, i1])⟩
  · exact ⟨.uint, by simp, other _ (by simp [promote, fits, Fund.signed, hs, hw, i1, i2])⟩
  · exact ⟨.int, by simp, other _ (by simp [promote, fits, Fund.signed, hs, hw, i1])⟩

/-- What happens to a fundamental type. -/
def outcome (w : Fund) : Fund → Out
  | .bool => .number .bool .int
  | .char | .schar | .uchar | .char8 | .char16 | .int => .number .int .int
  | .wchar => if w = .int then .number .int .int else .unlinked
  | .short => .number .short .int
  | .ushort => .number .ushort .int
  | .llong => .number .llong .llong
  | .float => .number .float .float
  | .double => .number .double .double
  | .uint | .char32 | .ullong | .ldouble => .unlinked
  | _ => .refused

theorem outcome_fund : ∀ w ∈ [Fund.int, .uint], ∀ f, call (table w) (best (rankFund (table w f) f) insertions) = outcome w f := by
  intro w hw f
  simp only [List.mem_cons, List.not_mem_nil, or_false] at hw
  rcases hw with rfl | rfl <;> cases f <;> decide +kernel

theorem outcome_enum : ∀ w ∈ [Fund.int, .uint], ∀ f, call (table w) (best (rankEnum (f :: (table w f).toList)) insertions) = outcome w f := by
  intro w hw f
  simp only [List.mem_cons, List.not_mem_nil, or_false] at hw
  rcases hw with rfl | rfl <;> cases f <;> decide +kernel

theorem cast_id {e : Env} {g : Fund} (hb : g ≠ .bool) {v : Int} (h : Value e g v) (hw : 0 < e.width g) : g.cast e v = v := by
  unfold Value at h
  unfold Fund.cast
  simp only [hb, if_false] at h ⊢
  split at h
  · rename_i hs
    simp only [hs, if_true]
    have h2 : (2 : Int) ^ e.width g = 2 * 2 ^ (e.width g - 1) := by
      obtain ⟨k, hk⟩ : ∃ k, e.width g = k + 1 := ⟨e.width g - 1, by omega⟩
      rw [hk, Nat.add_sub_cancel, Int.pow_succ]; omega
    apply Int.bmod_eq_of_le <;> push_cast <;> rw [h2] <;> omega
  · rename_i hs
    simp only [hs]
    push_cast
    exact Int.emod_eq_of_lt h.1 h.2

/-- Every integer that is accepted and linked keeps its value. -/
theorem keeps {P : Prog} (h : Usual P) {w : Fund} (hp : promote P.env = table w) (hw : w ∈ [Fund.int, .uint]) {f : Fund} (hf : cat (.base {} (.fund f)) = .integral)
    (h1 : outcome w f ≠ .refused) (h2 : outcome w f ≠ .unlinked) :
    ∃ via g, outcome w f = .number via g ∧ (g = .int ∨ g = .llong) ∧ ∀ v, Value P.env f v → g.cast P.env (via.cast P.env v) = v := by
  have hwc : w = .int → ∀ v, Value P.env .wchar v → Value P.env .int v := by
    intro e v hv
    have hpw := congrFun hp .wchar
    subst e
    obtain ⟨_, _, ⟨i1, i2, i3⟩, hw, _, _, _, _⟩ := h
    rcases hw with hw | hw <;> rcases hs : P.env.wcharSigned <;>
      simp [promote, table, fits, Fund.signed, Value, hs, hw, i1, i2] at hpw hv ⊢ <;> omega
  obtain ⟨⟨c1, c2, c3, c4⟩, ⟨s1, s2, s3⟩, ⟨i1, i2, i3⟩, _, _, ⟨l1, l2⟩, _, _⟩ := h
  have ci : ∀ v, Value P.env .int v → Fund.int.cast P.env v = v := fun v hv => cast_id (by simp) hv (by omega)
  have cl : ∀ v, Value P.env .llong v → Fund.llong.cast P.env v = v := fun v hv => cast_id (by simp) hv (by omega)
  have cs : ∀ v, Value P.env .short v → Fund.short.cast P.env v = v := fun v hv => cast_id (by simp) hv (by omega)
  have cu : ∀ v, Value P.env .ushort v → Fund.ushort.cast P.env v = v := fun v hv => cast_id (by simp) hv (by omega)
  have two : ∀ v, Value P.env .int v → Fund.int.cast P.env (Fund.int.cast P.env v) = v := fun v hv => by rw [ci v hv, ci v hv]
  cases f <;> simp only [outcome, ne_eq, not_true_eq_false, reduceCtorEq] at h1 h2 ⊢
  case bool =>
    refine ⟨_, _, rfl, .inl rfl, fun v hv => ?_⟩
    have hv' : v = 0 ∨ v = 1 := by simpa [Value] using hv
    have : Fund.bool.cast P.env v = v := by rcases hv' with rfl | rfl <;> simp [Fund.cast]
    rw [this]
    exact ci v (by simp [Value, Fund.signed, i1]; omega)
  case wchar =>
    by_cases e : w = .int
    · simp only [e, if_true]
      exact ⟨_, _, rfl, .inl rfl, fun v hv => two v (hwc e v hv)⟩
    · simp [e] at h2
  case llong => exact ⟨_, _, rfl, .inr rfl, fun v hv => by rw [cl v hv, cl v hv]⟩
  case short =>
    refine ⟨_, _, rfl, .inl rfl, fun v hv => ?_⟩
    rw [cs v hv]
    exact ci v (by simp [Value, Fund.signed, i1, s1] at hv ⊢; omega)
  case ushort =>
    refine ⟨_, _, rfl, .inl rfl, fun v hv => ?_⟩
    rw [cu v hv]
    exact ci v (by simp [Value, Fund.signed, i1, s2] at hv ⊢; omega)
  case char =>
    refine ⟨_, _, rfl, .inl rfl, fun v hv => two v ?_⟩
    rcases hs : P.env.charSigned <;> simp [Value, Fund.signed, i1, c1, hs] at hv ⊢ <;> omega
  case float | double => simp [cat] at hf
  all_goals
    refine ⟨_, _, rfl, .inl rfl, fun v hv => two v ?_⟩
    simp [Value, Fund.signed, i1, c2, c3, c4, s3] at hv ⊢
    try omega

theorem insert_base {P : Prog} (h : Usual P) : ∃ w ∈ [Fund.int, .uint], promote P.env = table w ∧
    (∀ q f, insert P (.base q (.fund f)) = outcome w f) ∧
    ∀ q n l, P.enumTo n = some l → ∃ f, cat (.base {} (.fund f)) = .integral ∧ l = f :: (promote P.env f).toList ∧ insert P (.base q (.enum n)) = outcome w f := by
  obtain ⟨w, hw, hp⟩ := promote_usual h
  refine ⟨w, hw, hp, fun q f => ?_, fun q n l hl => ?_⟩
  · rw [← outcome_fund w hw f]
    simp only [insert, Spec.decay, Spec.decayObj, hp]
    congr 2
    funext p
    simp only [rank, hp]
  · obtain ⟨f, hf, rfl⟩ := h.enum n l hl
    refine ⟨f, hf, rfl, ?_⟩
    rw [← outcome_enum w hw f]
    simp only [insert, Spec.decay, Spec.decayObj, hp]
    congr 2
    funext p
    simp only [rank, hl, hp]

/-- Ranks of a pointer by those of the three parameters that may take it besides `bool`. -/
def ranks (a b s : Option Nat) : Param → Option Nat
  | .fund .bool => some 7
  | .cvoid => a
  | .buf => b
  | .str => s
  | _ => none

theorem rankPtr_eq (P : Prog) (u : Ty) : rankPtr P u = ranks (rankPtr P u .cvoid) (rankPtr P u .buf) (rankPtr P u .str) := by
  funext p
  cases p with
  | fund f => cases f <;> rfl
  | _ => rfl

theorem insert_ptr (P : Prog) (q : CV) (u : Ty) : insert P (.ptr q u) =
    if cat u = .function ∨ (quals u).v = true then body (promote P.env .bool) .bool
    else match u with
      | .base q (.cls n) => if q = {} ∧ (n = P.buf ∨ P.derived n = true) then .unlinked else .cstr
      | _ => .cstr := by
  have hr : insert P (.ptr q u) = call (promote P.env) (best (rankPtr P u) insertions) := rfl
  rw [hr, rankPtr_eq]
  have vb : call (promote P.env) (some (.fund .bool)) = body (promote P.env .bool) .bool := rfl
  have n1 : best (ranks none none none) insertions = some (.fund .bool) := by decide
  have n2 : best (ranks (some 6) none none) insertions = some .cvoid := by decide
  have n3 : best (ranks (some 0) none none) insertions = some .cvoid := by decide
  have n4 : best (ranks (some 6) none (some 10)) insertions = some .cvoid := by decide
  have n5 : best (ranks (some 6) (some 0) none) insertions = some .buf := by decide
  have n6 : best (ranks (some 6) (some 5) none) insertions = some .buf := by decide
  cases u with
  | base q b =>
    obtain ⟨c, v⟩ := q
    cases b with
    | fund f => cases v <;> cases f <;> simp [rankPtr, cat, quals, isVoidTy, n1, n2, n3, n4, call]
    | cls n =>
      cases v <;> cases c <;> by_cases h1 : n = P.buf <;> by_cases h2 : P.derived n = true <;>
        simp [rankPtr, cat, quals, isVoidTy, n1, n2, n5, n6, call, h1, h2]
    | _ => cases v <;> simp [rankPtr, cat, quals, isVoidTy, n1, n2, call]
  | arr t n => by_cases h : (quals t).v = true <;> simp [rankPtr, cat, quals, isVoidTy, n1, n2, call, h]
  | ptr q t => obtain ⟨c, v⟩ := q; cases v <;> simp [rankPtr, cat, quals, isVoidTy, n1, n2, call]
  | mem q t n => obtain ⟨c, v⟩ := q; cases v <;> cases t <;> simp [rankPtr, cat, quals, isVoidTy, n1, n2, call]
  | _ => simp [rankPtr, cat, quals, isVoidTy, n1, n2, call]

theorem insert_mem (P : Prog) (q : CV) (t : Ty) (n : Nat) : insert P (.mem q t n) = body (promote P.env .bool) .bool := by
  have hr : rank P (.mem {} t n) = fun p => if p = .fund .bool then some 7 else none := rfl
  have hb : best (fun p => if p = .fund .bool then some 7 else none) insertions = some (.fund .bool) := by decide
  simp only [insert, Spec.decay, Spec.decayObj, hr, hb, call]

theorem insert_null (P : Prog) (q : CV) : insert P (.base q (.cls 0)) = .null := by
  have hr : rank P (.base {} (.cls 0)) = fun p => match p with
    | .null => some 0
    | .cvoid | .buf | .fund .bool => some 10
    | _ => none := rfl
  have hb : best (fun p => match p with
    | Param.null => some 0
    | .cvoid | .buf | .fund .bool => some 10
    | _ => none) insertions = some .null := by decide
  simp only [insert, Spec.decay, Spec.decayObj, hr]
  rw [hb]
  rfl

theorem body_bool {P : Prog} (h : Usual P) : body (promote P.env .bool) .bool = .number .bool .int := by
  obtain ⟨w, _, hp⟩ := promote_usual h
  rw [hp]
  rfl

theorem decay_decay (t : Ty) : Spec.decay (Spec.decay t) = Spec.decay t ∨ ∃ u, Spec.decay t = .lref u ∨ Spec.decay t = .rref u := by
  have obj : ∀ t, Spec.decay (Spec.decayObj t) = Spec.decayObj t ∨ ∃ u, Spec.decayObj t = .lref u ∨ Spec.decayObj t = .rref u := by
    intro t
    cases t with
    | fn q r a => cases q <;> exact .inl rfl
    | lref u => exact .inr ⟨u, .inl rfl⟩
    | rref u => exact .inr ⟨u, .inr rfl⟩
    | _ => exact .inl rfl
  cases t with
  | lref u => exact obj u
  | rref u => exact obj u
  | fn q r a => cases q <;> exact .inl rfl
  | _ => exact .inl rfl

theorem rank_none {P : Prog} {t : Ty} (h : ∀ p, rank P t p = none) : call (promote P.env) (best (rank P t) insertions) = .refused := by
  have : rank P t = fun _ => none := funext h
  rw [this]
  rfl

/-- What is accepted and linked prints as in the standard, except characters and pointers to objects that are no characters. -/
theorem c119_right_partial {P : Prog} (h : Usual P) {t : Ty} (hu : Usable (insert P t)) (h1 : kind P (Spec.decay t) ≠ .character) (h2 : kind P (Spec.decay t) ≠ .address) :
    Right P (Spec.decay t) (insert P t) (kind P (Spec.decay t)) := by
  obtain ⟨u1, u2⟩ := hu
  have hd : insert P t = call (promote P.env) (best (rank P (Spec.decay t)) insertions) := rfl
  have hdd := decay_decay t
  generalize Spec.decay t = d at *
  obtain ⟨w, hw, hp, hf, he⟩ := insert_base h
  rcases hdd with hdd | ⟨u, rfl | rfl⟩
  case inr.inl => exact absurd (hd.trans (rank_none fun p => rfl)) u1
  case inr.inr => exact absurd (hd.trans (rank_none fun p => rfl)) u1
  have hi : insert P t = insert P d := by rw [hd, insert, hdd]
  rw [hi] at u1 u2 ⊢
  cases d with
  | base q b =>
    cases b with
    | fund f =>
      rw [hf] at u1 u2 ⊢
      have hU : Underlying P (.base q (.fund f)) f := .inl ⟨q, rfl⟩
      by_cases hc : cat (.base {} (.fund f)) = .integral
      · obtain ⟨via, g, h3, h4, h5⟩ := keeps h hp hw hc u1 u2
        have hk : kind P (.base q (.fund f)) = .decimal := by
          cases f <;> first | rfl | (exact absurd rfl h1) | (simp [cat] at hc; done)
        rw [hk]
        exact ⟨f, via, g, hU, h3, h4, h5⟩
      · cases f <;> first | (exact absurd rfl hc) | (exact absurd rfl u1) | (exact absurd rfl u2) | (exact ⟨_, hU, rfl⟩)
    | enum n =>
      cases hn : P.enumTo n with
      | none => exact absurd (rank_none fun p => by simp [Spec.decay, Spec.decayObj, rank, hn]) u1
      | some l =>
        obtain ⟨f, hc, hl, hin⟩ := he q n l hn
        rw [hin] at u1 u2 ⊢
        obtain ⟨via, g, h3, h4, h5⟩ := keeps h hp hw hc u1 u2
        rw [hl] at hn
        have hk : kind P (.base q (.enum n)) = .decimal := by
          simp only [kind, hn] at h1 ⊢
          cases f <;> first | rfl | (exact absurd rfl h1) | (simp [cat] at hc; done)
        rw [hk]
        exact ⟨f, via, g, .inr ⟨q, n, _, rfl, hn⟩, h3, h4, h5⟩
    | cls n =>
      cases n with
      | zero => exact insert_null P q
      | succ n => exact absurd (rank_none fun p => rfl) u1
    | union n => exact absurd (rank_none fun p => rfl) u1
  | ptr q u =>
    rw [insert_ptr] at u1 u2 ⊢
    simp only [kind, kindPtr] at h1 h2 ⊢
    by_cases hv : cat u = .function ∨ (quals u).v = true
    · simp only [hv, if_true]
      exact body_bool h
    · simp only [hv, if_false] at u1 u2 h1 h2 ⊢
      cases u with
      | base q b =>
        cases b with
        | cls n =>
          by_cases hq : q = {} ∧ (n = P.buf ∨ P.derived n = true)
          · simp [hq] at u2
          · simp [hq] at h2
        | fund f => cases f <;> first | rfl | (simp at h2)
        | _ => simp at h2
      | _ => simp at h2
  | mem q u n => exact (insert_mem P q u n).trans (body_bool h)
  | fn q r a => exact absurd (by cases q <;> first | exact rank_none fun p => rfl | (simp [Spec.decay, Spec.decayObj] at hdd)) u1
  | arr u n => simp [Spec.decay, Spec.decayObj] at hdd
  | lref u => exact absurd (hd.trans (rank_none fun p => rfl)) (hi ▸ u1)
  | rref u => exact absurd (hd.trans (rank_none fun p => rfl)) (hi ▸ u1)

/-- Which fundamental types are accepted and linked: integers all of whose values are values of `int`, `long` being none of them even where it is as small, `long long`,
`float` and `double`. -/
theorem c119_accepted_partial {P : Prog} (h : Usual P) (q : CV) (f : Fund) :
    Usable (insert P (.base q (.fund f))) ↔
      f = .llong ∨ f = .float ∨ f = .double ∨
        (cat (.base q (.fund f)) = .integral ∧ f ≠ .long ∧ ∀ v, Value P.env f v → Value P.env .int v) := by
  obtain ⟨w, hw, hp, hf, -⟩ := insert_base h
  rw [hf]
  have hpw := congrFun hp .wchar
  obtain ⟨⟨c1, c2, c3, c4⟩, ⟨s1, s2, s3⟩, ⟨i1, i2, i3⟩, hww, hl, ⟨l1, l2⟩, ⟨x1, x2⟩, -⟩ := h
  have no : ∀ {g : Fund} (v : Int), Value P.env g v → ¬ Value P.env .int v → ¬ ∀ v, Value P.env g v → Value P.env .int v := fun v a b c => b (c v a)
  cases f
  case wchar =>
    simp only [List.mem_cons, List.not_mem_nil, or_false] at hw
    rcases hw with rfl | rfl <;> rcases hww with hww | hww <;> rcases hs : P.env.wcharSigned <;>
      simp [promote, table, fits, Fund.signed, Value, hs, hww, i1, i2, outcome, Usable, cat] at hpw ⊢ <;>
      first | (intros; omega) | exact ⟨2 ^ 32 - 1, by decide⟩
  case char =>
    rcases hs : P.env.charSigned <;> simp [Fund.signed, Value, hs, c1, i1, outcome, Usable, cat] <;> (intros; omega)
  case uint => simp [Fund.signed, Value, i1, i2, outcome, Usable, cat]; exact ⟨2 ^ 32 - 1, by decide⟩
  case char32 => simp [Fund.signed, Value, i1, i3, outcome, Usable, cat]; exact ⟨2 ^ 32 - 1, by decide⟩
  case ulong =>
    rcases hl with ⟨-, hl⟩ | ⟨-, hl⟩ <;> simp [Fund.signed, Value, i1, hl, outcome, Usable, cat] <;> exact ⟨2 ^ 32 - 1, by decide⟩
  case ullong => simp [Fund.signed, Value, i1, l2, outcome, Usable, cat]; exact ⟨2 ^ 32 - 1, by decide⟩
  case i128 => simp [Fund.signed, Value, i1, x1, outcome, Usable, cat]; exact ⟨2 ^ 32 - 1, by decide⟩
  case u128 => simp [Fund.signed, Value, i1, x2, outcome, Usable, cat]; exact ⟨2 ^ 32 - 1, by decide⟩
  all_goals simp [Fund.signed, Value, i1, s1, s2, s3, c2, c3, c4, outcome, Usable, cat] <;> (intros; omega)

/-- An unscoped enumeration is accepted as the first type it promotes to is; pointers are except to stream buffers; member pointers and `nanostl::nullptr_t` always;
a scoped enumeration never. -/
theorem c119_accepted_more {P : Prog} (h : Usual P) (q : CV) :
    (∀ n f l, P.enumTo n = some (f :: l) → insert P (.base q (.enum n)) = insert P (.base q (.fund f))) ∧
    (∀ n, P.enumTo n = none → ¬ Usable (insert P (.base q (.enum n)))) ∧
    (∀ u, Usable (insert P (.ptr q u)) ↔ kindPtr P u ≠ .contents) ∧
    (∀ u n, Usable (insert P (.mem q u n))) ∧ Usable (insert P (.base q (.cls 0))) := by
  obtain ⟨w, hw, hp, hf, he⟩ := insert_base h
  refine ⟨fun n f l hn => ?_, fun n hn hu => hu.1 (rank_none fun p => by simp [Spec.decay, Spec.decayObj, rank, hn]), fun u => ?_, fun u n => ?_, ?_⟩
  · obtain ⟨g, -, hl, hi⟩ := he q n _ hn
    rw [hi, hf]
    rw [(List.cons.inj hl).1]
  · rw [insert_ptr]
    unfold kindPtr
    by_cases hv : cat u = .function ∨ (quals u).v = true
    · simp [hv, body_bool h, Usable]
    · simp only [hv, if_false]
      cases u with
      | base q b =>
        cases b with
        | cls n => by_cases hq : q = {} ∧ (n = P.buf ∨ P.derived n = true) <;> simp [hq, Usable]
        | fund f => cases f <;> simp [Usable]
        | _ => simp [Usable]
      | _ => simp [Usable]
  · rw [insert_mem, body_bool h]; simp [Usable]
  · rw [insert_null]; simp [Usable]

/-- No argument that is no class makes the insertion run for ever. -/
theorem c119_ends {P : Prog} (h : Usual P) (t : Ty) : insert P t ≠ .loops := by
  intro hl
  have hu : Usable (insert P t) := by rw [hl]; simp [Usable]
  have hd : insert P t = call (promote P.env) (best (rank P (Spec.decay t)) insertions) := rfl
  have hdd := decay_decay t
  have hr := c119_right_partial h hu
  generalize Spec.decay t = d at *
  rcases hdd with hdd | ⟨u, rfl | rfl⟩
  case inr.inl => exact hu.1 (hd.trans (rank_none fun p => rfl))
  case inr.inr => exact hu.1 (hd.trans (rank_none fun p => rfl))
  have hi : insert P t = insert P d := by rw [hd, insert, hdd]
  rw [hl] at hi hr
  obtain ⟨w, hw, -, hf, he⟩ := insert_base h
  have ho : ∀ f, outcome w f ≠ .loops := by
    intro f
    cases f <;> simp [outcome]
    split <;> simp
  by_cases hb : ∃ q f, d = .base q (.fund f)
  · obtain ⟨q, f, rfl⟩ := hb
    exact ho f (hf q f ▸ hi.symm)
  by_cases hb : ∃ q n, d = .base q (.enum n)
  · obtain ⟨q, n, rfl⟩ := hb
    cases hn : P.enumTo n with
    | none => exact hu.1 (hd.trans (rank_none fun p => by simp [rank, hn]))
    | some l =>
      obtain ⟨f, -, -, h3⟩ := he q n l hn
      exact ho f (h3 ▸ hi.symm)
  by_cases hb : ∃ q u, d = .ptr q u
  · obtain ⟨q, u, rfl⟩ := hb
    rw [insert_ptr, body_bool h] at hi
    split at hi
    · cases hi
    · split at hi
      · split at hi <;> cases hi
      · cases hi
  have k : kind P d = .null ∨ kind P d = .truth ∨ kind P d = .nothing := by
    rcases d with ⟨q, f | n | n | n⟩ | _ | _ | _ | _ | _ | _ <;> simp_all [kind]
    cases n <;> simp
  rcases k with k | k | k <;> rw [k] at hr <;> simp [Right] at hr

/-- Every character prints as its code. -/
theorem c119_characters_false {P : Prog} (h : Usual P) (q : CV) {f : Fund} (hf : kindF f = .character) : insert P (.base q (.fund f)) = .number .int .int := by
  obtain ⟨w, hw, hp, hi, -⟩ := insert_base h
  rw [hi]
  cases f <;> simp [kindF] at hf <;> rfl

/-- Every pointer that should print an address is read as a C string. -/
theorem c119_addresses_false {P : Prog} (q : CV) {u : Ty} (hu : kindPtr P u = .address) : insert P (.ptr q u) = .cstr := by
  rw [insert_ptr]
  unfold kindPtr at hu
  by_cases hv : cat u = .function ∨ (quals u).v = true
  · simp [hv] at hu
  · simp only [hv, if_false] at hu ⊢
    cases u with
    | base q b =>
      cases b with
      | cls n => by_cases hq : q = {} ∧ (n = P.buf ∨ P.derived n = true) <;> simp [hq] at hu ⊢
      | _ => rfl
    | _ => rfl

/-- `long`, its unsigned counterpart, the 128 bit integers and the null pointer constant do not compile; `unsigned`, `char32_t`, `unsigned long long`, `long double` and stream buffers
do not link. -/
theorem c119_missing_false {P : Prog} (h : Usual P) (q : CV) :
    (∀ f ∈ [Fund.long, .ulong, .i128, .u128, .nullptr], insert P (.base q (.fund f)) = .refused) ∧
    (∀ f ∈ [Fund.uint, .char32, .ullong, .ldouble], insert P (.base q (.fund f)) = .unlinked) ∧
    insert P (.ptr q (.base {} (.cls P.buf))) = .unlinked := by
  obtain ⟨w, hw, hp, hi, -⟩ := insert_base h
  refine ⟨fun f hf => ?_, fun f hf => ?_, ?_⟩
  · rw [hi]
    simp only [List.mem_cons, List.not_mem_nil, or_false] at hf
    rcases hf with rfl | rfl | rfl | rfl | rfl <;> rfl
  · rw [hi]
    simp only [List.mem_cons, List.not_mem_nil, or_false] at hf
    rcases hf with rfl | rfl | rfl | rfl <;> rfl
  · rw [insert_ptr]; simp [cat, quals]

/-! ### Cases that meet the hypotheses -/

/-- x86-64 Linux. Enumeration 0 is `enum : short`, 1 `enum class`, 2 `enum : unsigned`; class 7 is `basic_streambuf<char>`, 8 derived from it. -/
def linux : Prog where
  env :=
    { charSigned := true
      wcharSigned := true
      width := fun
        | .bool | .char | .schar | .uchar | .char8 => 8
        | .short | .ushort | .char16 => 16
        | .int | .uint | .char32 | .wchar | .float => 32
        | .long | .ulong | .llong | .ullong | .double | .nullptr | .void => 64
        | .i128 | .u128 | .ldouble => 128
      width_pos := by intro f; cases f <;> decide
      clsFinal := fun _ => false
      clsEmpty := fun _ => false
      clsDtor := fun _ => true
      unionDtor := fun _ => true }
  enumTo := fun | 0 => some [.short, .int] | 2 => some [.uint] | _ => none
  buf := 7
  derived := fun n => n == 8

theorem linux_usual : Usual linux where
  c := by decide
  s := by decide
  i := by decide
  w := by decide
  l := by decide
  ll := by decide
  x := by decide
  enum := by
    intro n l h
    match n, h with
    | 0, h => cases h; exact ⟨.short, rfl, by decide⟩
    | 2, h => cases h; exact ⟨.uint, rfl, by decide⟩
    | 1, h => cases h
    | n + 3, h => cases h

/-- An enumeration over `short` prints as its number. -/
example : Right linux (.base {} (.enum 0)) (.number .short .int) .decimal :=
  c119_right_partial linux_usual (t := .lref (.base { c := true } (.enum 0))) (by constructor <;> decide) (by decide) (by decide)

/-- A string literal prints as text. -/
example : Right linux (.ptr {} (.base { c := true } (.fund .char))) .cstr .text :=
  c119_right_partial linux_usual (t := .lref (.arr (.base { c := true } (.fund .char)) (some 6))) (by constructor <;> decide) (by decide) (by decide)

example : Usable (insert linux (.base {} (.fund .char16))) ∧ ¬ Usable (insert linux (.base {} (.fund .long))) := by
  constructor
  · constructor <;> decide
  · intro h; exact h.1 (by decide)

/-- A pointer to an array of `int` is read as a C string, one to a `volatile int` prints whether it is null. -/
example : kindPtr linux (.arr (.base {} (.fund .int)) (some 3)) = .address ∧ insert linux (.ptr {} (.base { v := true } (.fund .int))) = .number .bool .int := by
  constructor <;> decide

end Nanostl.Stream.Insert
