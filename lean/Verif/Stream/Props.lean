import Verif.Stream.Model
import Verif.Str.Props
import Verif.Str.ToStringProps
import Verif.Ryu.PrintProps
import Mathlib.Tactic.Convert
import Mathlib.Data.List.Forall2
import Mathlib.Data.List.TakeWhile

/-! Property theorems C31-C33. -/

namespace Nanostl.Stream

open Nanostl.Vector (World)
open Nanostl.Str
open Nanostl.Float

/-! ### C31 -/

namespace Spec

open Nanostl.Str.Spec (Abs upd Good)

/-- The object an operation creates. -/
def creates : SCmd → Option Nat
  | .new i | .fromC i _ | .copy i _ | .plus i _ _ => some i
  | _ => none

def Pre (tmp : Nat) (A : Abs) : Cmd → Prop
  | .str c => Str.Spec.Pre A c ∧ creates c ≠ some tmp
  | .clear i => ∃ x, A i = some x
  | .move i j => i ≠ j ∧ (∃ x, A i = some x) ∧ Good A j

def Post (A : Abs) : Cmd → Abs → Prop
  | .str c, A' => Str.Spec.Post A c A'
  | .clear i, A' => A' = upd A i (some (some []))
  | .move i j, A' => A' = upd (upd A i (A j)) j (some (some []))

/-- After a throw: only the objects written to may be left unspecified. -/
def Exc (A : Abs) : Cmd → Abs → Prop
  | .str c, A' => Str.Spec.Exc A c A'
  | .clear i, A' => A' = A ∨ A' = upd A i (some none)
  | .move i j, A' => A' = upd A i (some none) ∨ A' = upd A i (A j) ∨ A' = upd (upd A i (A j)) j (some none)

inductive Run : Abs → List Cmd → List Bool → Abs → Prop
  | nil (A) : Run A [] [] A
  | ok {A A' A'' c cs ts} : Post A c A' → Run A' cs ts A'' → Run A (c :: cs) (false :: ts) A''
  | exc {A A' A'' c cs ts} : Exc A c A' → Run A' cs ts A'' → Run A (c :: cs) (true :: ts) A''

end Spec

open Nanostl.Str.Spec (upd Good)

theorem upd_tmp_none {A : Str.Spec.Abs} {tmp i : Nat} (ht : A tmp = none) (hi : i ≠ tmp) (y : Option (Option (List Byte)))
    (x : Option (Option (List Byte))) : upd (upd (upd A tmp y) i x) tmp none = upd A i x := by
  funext j
  simp only [upd]
  by_cases h1 : j = tmp
  · subst h1; simp [Ne.symm hi, ht]
  · simp [h1]

theorem assignEmpty_ok {w : World Byte} {A : Str.Spec.Abs} (S : SInv w A) {tmp i : Nat} (ht : A tmp = none)
    (hi : ∃ x, A i = some x) : ∃ w' t A', assignEmpty tmp w i = some (w', t) ∧ SInv w' A' ∧ A' tmp = none ∧
      (t = false → A' = upd A i (some (some []))) ∧ (t = true → A' = A ∨ A' = upd A i (some none)) := by
  have hne : i ≠ tmp := by rintro rfl; obtain ⟨x, hx⟩ := hi; rw [ht] at hx; cases hx
  obtain ⟨w1, t1, A1, h1, S1, p1, e1⟩ := sstep_ok S (.new tmp) ht
  cases t1 with
  | true =>
    have := e1 rfl
    subst this
    exact ⟨w1, true, A1, by simp only [assignEmpty, h1], S1, ht, by simp, fun _ => .inl rfl⟩
  | false =>
    have := p1 rfl
    subst this
    have hi1 : ∃ x, upd A tmp (some (some [])) i = some x := by simpa [upd, hne] using hi
    obtain ⟨w2, t2, A2, h2, S2, p2, e2⟩ := sstep_ok S1 (.assign i tmp) ⟨hi1, [], by simp [upd]⟩
    have htmp : ∃ x, A2 tmp = some x := by
      cases t2 with
      | false => rw [p2 rfl]; exact ⟨some [], by simp [upd, Ne.symm hne]⟩
      | true => rw [(e2 rfl).2]; exact ⟨some [], by simp [upd, Ne.symm hne]⟩
    obtain ⟨w3, t3, A3, h3, S3, p3, e3⟩ := sstep_ok S2 (.del tmp) htmp
    have ht3 : t3 = false := by cases t3 with
      | false => rfl
      | true => exact (e3 rfl).elim
    have := p3 ht3
    subst this
    refine ⟨w3, t2, _, by simp only [assignEmpty, h1, h2, h3], S3, by simp [upd], ?_, ?_⟩
    · intro h
      rw [p2 h]
      rw [show upd A tmp (some (some [])) tmp = some (some []) by simp [upd]]
      exact upd_tmp_none ht hne _ _
    · intro h
      rw [(e2 h).2]
      exact .inr (upd_tmp_none ht hne _ _)

theorem step_ok {w : World Byte} {A : Str.Spec.Abs} (S : SInv w A) {tmp : Nat} (ht : A tmp = none) (c : Cmd) (hp : Spec.Pre tmp A c) :
    ∃ w' t A', step tmp w c = some (w', t) ∧ SInv w' A' ∧ A' tmp = none ∧ (t = false → Spec.Post A c A') ∧
      (t = true → Spec.Exc A c A') := by
  cases c with
  | str c =>
    obtain ⟨hp1, hp2⟩ := hp
    obtain ⟨w', t, A', h, S', p, e⟩ := sstep_ok S c hp1
    refine ⟨w', t, A', h, S', ?_, p, e⟩
    have keep : ∀ {i x}, i ≠ tmp → upd A i x tmp = none := by
      intro i x hi; simp [upd, Ne.symm hi, ht]
    have old : ∀ {i x}, A i = some x → i ≠ tmp := by rintro i x h rfl; rw [ht] at h; cases h
    cases t with
    | false =>
      have q := p rfl
      cases c with
      | new i => rw [q]; exact keep fun h => hp2 (by simp [Spec.creates, h])
      | fromC i s => rw [q]; exact keep fun h => hp2 (by simp [Spec.creates, h])
      | copy i j => rw [q]; exact keep fun h => hp2 (by simp [Spec.creates, h])
      | plus k i j => obtain ⟨_, _, _, _, q⟩ := q; rw [q]; exact keep fun h => hp2 (by simp [Spec.creates, h])
      | append i j => obtain ⟨_, _, q1, _, q⟩ := q; rw [q]; exact keep (old q1)
      | assign i j => obtain ⟨⟨x, hx⟩, _⟩ := hp1; rw [q]; exact keep (old hx)
      | clear i => obtain ⟨x, hx⟩ := hp1; rw [q]; exact keep (old hx)
      | write i k c => obtain ⟨_, q1, q⟩ := q; rw [q]; exact keep (old q1)
      | erase i k => obtain ⟨_, q1, q⟩ := q; rw [q]; exact keep (old q1)
      | del i => obtain ⟨x, hx⟩ := hp1; rw [q]; exact keep (old hx)
    | true =>
      have q := e rfl
      cases c with
      | new i => rw [q]; exact ht
      | fromC i s => rw [q]; exact ht
      | copy i j => rw [q]; exact ht
      | plus k i j => rw [q]; exact ht
      | append i j => obtain ⟨_, ⟨l, hl⟩, _⟩ := hp1; rw [q]; exact keep (old hl)
      | assign i j => obtain ⟨⟨x, hx⟩, _⟩ := hp1; rw [q.2]; exact keep (old hx)
      | clear i => rw [q.2]; exact ht
      | write i k c => exact q.elim
      | erase i k => exact q.elim
      | del i => exact q.elim
  | clear i =>
    obtain ⟨w', t, A', h, S', h1, h2, h3⟩ := assignEmpty_ok S ht hp
    exact ⟨w', t, A', h, S', h1, h2, h3⟩
  | move i j =>
    obtain ⟨hij, ⟨x, hx⟩, ⟨l, hl⟩⟩ := hp
    have hi : i ≠ tmp := by rintro rfl; rw [ht] at hx; cases hx
    obtain ⟨w1, t1, A1, h1, S1, p1, e1⟩ := sstep_ok S (.assign i j) ⟨⟨x, hx⟩, l, hl⟩
    cases t1 with
    | true =>
      have := (e1 rfl).2
      subst this
      exact ⟨w1, true, _, by simp only [step, h1], S1, by simp [upd, Ne.symm hi, ht], by simp, fun _ => .inl rfl⟩
    | false =>
      have := p1 rfl
      subst this
      obtain ⟨w2, t2, A2, h2, S2, g1, g2, g3⟩ := assignEmpty_ok S1 (tmp := tmp) (i := j) (by simp [upd, Ne.symm hi, ht])
        ⟨some l, by simp [upd, Ne.symm hij, hl]⟩
      refine ⟨w2, t2, A2, by simp only [step, h1, h2], S2, g1, g2, fun h => ?_⟩
      rcases g3 h with h | h
      · exact .inr (.inl h)
      · exact .inr (.inr h)

/-- Every operation of the program meets its precondition in the state in which it is executed. -/
def Legal (tmp : Nat) : World Byte → Str.Spec.Abs → List Cmd → Prop
  | _, _, [] => True
  | w, A, c :: cs => Spec.Pre tmp A c ∧ ∀ w' t A', step tmp w c = some (w', t) →
      (if t = true then Spec.Exc A c A' else Spec.Post A c A') → Legal tmp w' A' cs

theorem run_ok (tmp : Nat) : ∀ (cs : List Cmd) (w : World Byte) (A : Str.Spec.Abs), SInv w A → A tmp = none → Legal tmp w A cs →
    ∃ w' ts A', run tmp w cs = some (w', ts) ∧ SInv w' A' ∧ Spec.Run A cs ts A'
  | [], w, A, S, _, _ => ⟨w, [], A, rfl, S, .nil _⟩
  | c :: cs, w, A, S, ht, hl => by
    obtain ⟨w1, t, A1, h1, S1, ht1, h2, h3⟩ := step_ok S ht c hl.1
    have hl' := hl.2 w1 t A1 h1 (by cases t <;> simp [h2, h3])
    obtain ⟨w2, ts, A2, h4, S2, h5⟩ := run_ok tmp cs w1 A1 S1 ht1 hl'
    refine ⟨w2, t :: ts, A2, by simp only [run, h1, h4], S2, ?_⟩
    cases t with
    | false => exact .ok (h2 rfl) h5
    | true => exact .exc (h3 rfl) h5

/-- C31. Any legal history of operations on strings and stringstreams runs without undefined behaviour and without leak, and the
contents of every stream not spoilt by a throw are those computed by the specification: `<<` appends, `clear` empties, move
assignment transfers and empties the source. -/
theorem c31_stringstream_history (tmp : Nat) (fails : Nat → Nat → Bool) (fresh : Option Byte) (cs : List Cmd)
    (hl : Legal tmp (World.start fails fresh) (fun _ => none) cs) :
    ∃ w ts A, run tmp (World.start fails fresh) cs = some (w, ts) ∧ Spec.Run (fun _ => none) cs ts A ∧
      ((∀ i, A i = none) → ∀ p, w.heap.mem p = none) ∧
      ∀ i l, A i = some (some l) → ∃ v, w.vec i = some v ∧ strSize v = l.length ∧
        (∀ k c, l[k]? = some c → Vector.read k (w.heap, v) = .ok (w.heap, v) c) ∧ reader w.heap v l.length = some 0 := by
  obtain ⟨w, ts, A, h1, S, h2⟩ := run_ok tmp cs _ _ (sinv_start fails fresh) rfl hl
  refine ⟨w, ts, A, h1, h2, ?_, ?_⟩
  · intro hn p
    rcases hm : w.heap.mem p with _ | b
    · rfl
    · exfalso
      rcases S.inv.owned p (by simp [hm]) with ⟨i, v, hv, _⟩ | h
      · have := Vector.abs_none (S.dead i (hn i)); rw [hv] at this; cases this
      · rw [S.leak] at h; cases h
  · intro i l hA
    obtain ⟨v, hv, h3, h4, _, _⟩ := Vector.observe S.inv (S.good i l hA)
    have wv := S.inv.wf i v hv
    have hvl : Vector.view w.heap v = enc l := by
      have := S.good i l hA
      rw [Vector.abs_of_vec hv] at this
      exact Option.some.inj this
    have hsz : v.size = l.length + 1 := by rw [h3]; simp [enc]
    have h6 := Vector.wf_cap_lt wv
    have h5 := Vector.wf_size_le wv
    refine ⟨v, hv, by unfold strSize Vector.word; omega, ?_, ?_⟩
    · intro k c hk
      apply h4
      have hkl : k < l.length := by
        rcases Nat.lt_or_ge k l.length with h | h
        · exact h
        · simp [List.getElem?_eq_none h] at hk
      simp only [enc]
      rw [List.getElem?_append_left (by simpa using hkl)]
      simp [hk]
    · rw [holds_reader wv hvl l.length (Nat.le_refl _)]; simp

/-- C31. Sequences of insertions that do not throw: `str()` is what it was followed by the inserted strings, in order; nothing else
changes. In particular after `clear` it is their concatenation. -/
theorem c31_concat (i : Nat) : ∀ (js : List Nat) (A A' : Str.Spec.Abs) (l : List Byte), i ∉ js → A i = some (some l) →
    Spec.Run A (js.map fun j => .str (.append i j)) (js.map fun _ => false) A' →
    ∃ ms : List (List Byte), js.map A = ms.map (fun m => some (some m)) ∧ A' i = some (some (l ++ ms.flatten)) ∧ ∀ j, j ≠ i → A' j = A j
  | [], A, A', l, _, hi, h => by
    cases h
    exact ⟨[], rfl, by simpa using hi, fun _ _ => rfl⟩
  | j :: js, A, A', l, hn, hi, h => by
    simp only [List.map_cons] at h
    cases h with
    | ok hp hr =>
      obtain ⟨l', m, e1, e2, rfl⟩ := hp
      rw [hi] at e1; cases e1
      obtain ⟨ms, g1, g2, g3⟩ := c31_concat i js _ A' (l ++ m) (fun h => hn (by simp [h])) (by simp [upd]) hr
      have hj : ∀ j ∈ js, j ≠ i := by rintro j hj rfl; exact hn (by simp [hj])
      refine ⟨m :: ms, ?_, ?_, ?_⟩
      · simp only [List.map_cons, e2]
        rw [← g1]
        congr 1
        exact List.map_congr_left fun j h => by simp [upd, hj j h]
      · simpa using g2
      · intro k hk
        rw [g3 k hk]; simp [upd, hk]

/-- A program that meets the hypotheses: insert, clear, insert, move. -/
def demo : List Cmd := [.str (.new 0), .str (.fromC 1 (some [104, 105, 0])), .str (.append 0 1), .clear 0, .str (.append 0 1),
  .str (.append 0 1), .str (.new 3), .move 3 0]

example : (run 2 (World.start (fun _ _ => false) none) demo).map (fun x => (x.2, Vector.abs x.1 3, Vector.abs x.1 0)) =
    some ([false, false, false, false, false, false, false, false], some [some 104, some 105, some 104, some 105, some 0], some [some 0]) := by
  decide +kernel

example : Legal 2 (World.start (fun _ _ => false) none) (fun _ => none) (demo.take 4) := by
  have tf : ∀ {w : World Byte} {c : Cmd} {w' : World Byte} {t : Bool} {b : Bool}, (step 2 w c).map (·.2) = some b →
      step 2 w c = some (w', t) → t = b := by
    intro w c w' t b h1 h2; rw [h2] at h1; simpa using h1
  let w0 : World Byte := World.start (fun _ _ => false) none
  refine ⟨⟨rfl, by decide⟩, fun w1 t1 A1 s1 p1 => ?_⟩
  have := tf (b := false) (by decide +kernel) s1; subst this
  have := snext_of_post (c := .new 0) (by simpa [Spec.Post] using p1); subst this
  refine ⟨⟨⟨rfl, ?_⟩, by decide⟩, fun w2 t2 A2 s2 p2 => ?_⟩
  · intro b hb; cases hb; decide
  have e2 : ((step 2 w0 (.str (.new 0))).bind fun x => step 2 x.1 (.str (.fromC 1 (some [104, 105, 0])))).map (·.2) = some false := by
    decide +kernel
  rw [s1, Option.bind_some] at e2
  have := tf (b := false) e2 s2; subst this
  have := snext_of_post (c := .fromC 1 (some [104, 105, 0])) (by simpa [Spec.Post] using p2); subst this
  refine ⟨⟨⟨by decide, ⟨[], by decide⟩, ⟨[104, 105], by decide⟩⟩, by decide⟩, fun w3 t3 A3 s3 p3 => ?_⟩
  have e3 : (((step 2 w0 (.str (.new 0))).bind fun x => step 2 x.1 (.str (.fromC 1 (some [104, 105, 0])))).bind fun x =>
      step 2 x.1 (.str (.append 0 1))).map (·.2) = some false := by decide +kernel
  rw [s1, Option.bind_some, s2, Option.bind_some] at e3
  have := tf (b := false) e3 s3; subst this
  have := snext_of_post (c := .append 0 1) (by simpa [Spec.Post] using p3); subst this
  exact ⟨⟨some [104, 105], by decide⟩, fun _ _ _ _ _ => trivial⟩

/-! ### C32 -/

/-- `s` is the text of the floating value: `NaN`, `Infinity` with its sign, or a decimal number to which this value, and no other, is nearest. -/
def FloatText (φ : Fmt) (bits : Nat) (s : List Byte) : Prop :=
  (φ.val bits = .nan → s = Ryu.bytes "NaN") ∧ (φ.val bits = .inf false → s = Ryu.bytes "Infinity") ∧
  (φ.val bits = .inf true → s = Ryu.bytes "-Infinity") ∧
  (φ.expo bits ≠ φ.emax → ∃ c k, Ryu.IsSci s (φ.sign bits) c k ∧ ∀ t, DecNearest φ c k t ↔ t = φ.low bits)

/-- `s` is the text of what is inserted; a flush inserts nothing. -/
def TextOf : OCmd → List Byte → Prop
  | .int v, s => IsDecimal v s
  | .int64 v, s => IsDecimal v s
  | .float _ bits _, s => FloatText f32 bits s
  | .double _ bits _, s => FloatText f64 bits s
  | .text b, s => s = Str.Spec.cchars (some b)
  | .flush, s => s = []

/-- Arguments for which `to_string` works (C17, C18), all floating values (the local arrays have 16 and 25 bytes) and terminated C strings. -/
def Arg : OCmd → Prop
  | .int v => -999999999 ≤ v ∧ v < 2 ^ 31
  | .int64 v => -2 ^ 31 < v ∧ v < 2 ^ 31
  | .float _ _ arr => arr.length = 16
  | .double _ _ arr => arr.length = 25
  | .text b => 0 ∈ b
  | .flush => True

/-- Only the stream, object 0, is alive, with contents `l`. -/
def ostate (l : List Byte) : Str.Spec.Abs := fun j => if j = 0 then some (some l) else none

theorem printLoop_ok {p : Nat → Option Byte} {l : List Byte} (hl : ∀ c ∈ l, c ≠ 0)
    (hp : ∀ i, i ≤ l.length → p i = (l ++ [0])[i]?) : ∀ (n f i : Nat), l.length - i = n → i ≤ l.length → n < f →
    printLoop p f i = some (l.drop i)
  | n, f, i, h1, h2, h3 => by
    obtain ⟨f, rfl⟩ : ∃ g, f = g + 1 := ⟨f - 1, by omega⟩
    unfold printLoop
    rw [hp i h2]
    by_cases hi : i < l.length
    · have hne : l[i] ≠ 0 := hl _ (List.getElem_mem hi)
      have ih := printLoop_ok hl hp (n - 1) f (i + 1) (by omega) (by omega) (by omega)
      rw [List.getElem?_append_left hi, List.getElem?_eq_getElem hi, List.drop_eq_getElem_cons hi]
      simp [hne, ih]
    · have : i = l.length := by omega
      subst this
      simp

theorem insertBuf_ok {w : World Byte} {l : List Byte} (S : SInv w (ostate l)) {b : List Byte} (hb : 0 ∈ b) :
    ∃ w' t, insertBuf w b = some (w', t) ∧ (t = false → SInv w' (ostate (l ++ Str.Spec.cchars (some b)))) := by
  obtain ⟨w1, t1, A1, h1, S1, p1, e1⟩ := sstep_ok S (.fromC 1 (some b)) ⟨by simp [ostate], fun c hc => by cases hc; exact hb⟩
  cases t1 with
  | true => exact ⟨w1, true, by simp only [insertBuf, h1], by simp⟩
  | false =>
    have := p1 rfl
    subst this
    obtain ⟨w2, t2, A2, h2, S2, p2, e2⟩ := sstep_ok S1 (.append 0 1) ⟨by decide, ⟨l, by simp [upd, ostate]⟩, Str.Spec.cchars (some b), by simp [upd]⟩
    have hA : ∃ x, A2 1 = some x := by
      cases t2 with
      | false => obtain ⟨_, _, _, _, q⟩ := p2 rfl; rw [q]; exact ⟨some (Str.Spec.cchars (some b)), by simp [upd]⟩
      | true => rw [e2 rfl]; exact ⟨some (Str.Spec.cchars (some b)), by simp [upd]⟩
    obtain ⟨w3, t3, A3, h3, S3, p3, e3⟩ := sstep_ok S2 (.del 1) hA
    have ht3 : t3 = false := by cases t3 with
      | false => rfl
      | true => exact (e3 rfl).elim
    refine ⟨w3, t2, by simp only [insertBuf, h1, h2, h3], fun ht => ?_⟩
    obtain ⟨l', m, q1, q2, q3⟩ := p2 ht
    have e1' : l' = l := by simpa [upd, ostate, eq_comm] using q1
    have e2' : m = Str.Spec.cchars (some b) := by simpa [upd, eq_comm] using q2
    subst e1' e2'
    have := p3 ht3
    rw [this, q3] at S3
    convert S3 using 1
    funext j
    simp only [ostate, upd]
    by_cases h0 : j = 0
    · subst h0; simp
    · by_cases hj : j = 1 <;> simp [h0, hj]

theorem cstr_nz : ∀ {b s : List Byte}, Ryu.cstr b = some s → ∀ c ∈ s, c ≠ 0
  | [], _, h => by simp [Ryu.cstr] at h
  | x :: b, s, h => by
    unfold Ryu.cstr at h
    split at h
    · cases h; simp
    · rename_i hx
      cases hb : Ryu.cstr b with
      | none => simp [hb] at h
      | some t =>
        rw [hb] at h
        cases h
        intro c hc
        rcases List.mem_cons.mp hc with h | h
        · rwa [h]
        · exact cstr_nz hb c h

theorem cchars_terminated {s : List Byte} (h : ∀ c ∈ s, c ≠ 0) : Str.Spec.cchars (some (s ++ [0])) = s := by
  simp only [Str.Spec.cchars]
  rw [List.takeWhile_append_of_pos (by intro c hc; simpa using h c hc)]
  simp

theorem float_text (p : Bool) (bits : Nat) {arr : List Byte} (ha : arr.length = 16) :
    ∃ s, Ryu.toStringFloat p bits arr = some s ∧ (∀ c ∈ s, c ≠ 0) ∧ FloatText f32 bits s := by
  obtain ⟨s, h1, _, h2, h3, h4, _⟩ := Ryu.c51_float_text p bits arr ha
  refine ⟨s, h1, ?_, h2, h3, h4, fun hf => ?_⟩
  · simp only [Ryu.toStringFloat, Option.bind_eq_bind, Option.bind_eq_some_iff] at h1
    obtain ⟨_, _, b, _, h⟩ := h1
    exact cstr_nz h
  · obtain ⟨s', c, k, g1, g2, g3⟩ := Ryu.c47_float_roundtrip p bits arr ha hf
    rw [h1] at g1
    cases g1
    exact ⟨c, k, g2, g3⟩

theorem double_text (p : Bool) (bits : Nat) {arr : List Byte} (ha : arr.length = 25) :
    ∃ s, Ryu.toStringDouble p bits arr = some s ∧ (∀ c ∈ s, c ≠ 0) ∧ FloatText f64 bits s := by
  obtain ⟨s, h1, _, h2, h3, h4, _⟩ := Ryu.c51_double_text p bits arr ha
  refine ⟨s, h1, ?_, h2, h3, h4, fun hf => ?_⟩
  · simp only [Ryu.toStringDouble, Option.bind_eq_bind, Option.bind_eq_some_iff] at h1
    obtain ⟨_, _, b, _, h⟩ := h1
    exact cstr_nz h
  · obtain ⟨s', c, k, g1, g2, g3⟩ := Ryu.c49_double_roundtrip p bits arr ha hf
    rw [h1] at g1
    cases g1
    exact ⟨c, k, g2, g3⟩

theorem ostep_ok {w : World Byte} {l : List Byte} (S : SInv w (ostate l)) (hl : ∀ c ∈ l, c ≠ 0) (c : OCmd) (hc : Arg c) :
    ∃ w' out t, ostep w c = some (w', out, t) ∧ (t = false → ∃ s l', TextOf c s ∧ SInv w' (ostate l') ∧ (∀ c ∈ l', c ≠ 0) ∧
      out ++ l' = l ++ s ∧ (c = .flush → l' = [])) := by
  have nz : ∀ b : List Byte, ∀ c ∈ Str.Spec.cchars (some b), c ≠ 0 := by
    intro b c hc
    have := List.mem_takeWhile_imp hc
    simpa using this
  have buf : ∀ {b : List Byte}, 0 ∈ b → ∃ w' t, insertBuf w b = some (w', t) ∧ (t = false → ∃ l', SInv w' (ostate l') ∧
      (∀ c ∈ l', c ≠ 0) ∧ l' = l ++ Str.Spec.cchars (some b)) := by
    intro b hb
    obtain ⟨w', t, h1, h2⟩ := insertBuf_ok S hb
    refine ⟨w', t, h1, fun ht => ⟨_, h2 ht, ?_, rfl⟩⟩
    intro c hc
    rcases List.mem_append.mp hc with h | h
    · exact hl c h
    · exact nz b c h
  cases c with
  | int v =>
    obtain ⟨b, h1, h2, h3⟩ := c17_to_string_partial v hc.1 hc.2
    obtain ⟨w', t, g1, g2⟩ := buf h2
    refine ⟨w', [], t, by simp only [ostep, h1, g1, Option.map_some], fun ht => ?_⟩
    obtain ⟨l', k1, k2, k3⟩ := g2 ht
    exact ⟨_, l', h3, k1, k2, by simpa using k3, by simp⟩
  | int64 v =>
    obtain ⟨b, h1, h2, h3⟩ := c18_to_string64_partial v hc.1 hc.2
    obtain ⟨w', t, g1, g2⟩ := buf h2
    refine ⟨w', [], t, by simp only [ostep, h1, g1, Option.map_some], fun ht => ?_⟩
    obtain ⟨l', k1, k2, k3⟩ := g2 ht
    exact ⟨_, l', h3, k1, k2, by simpa using k3, by simp⟩
  | float p bits arr =>
    obtain ⟨s, h1, h2, h3⟩ := float_text p bits (arr := arr) hc
    obtain ⟨w', t, g1, g2⟩ := buf (b := s ++ [0]) (by simp)
    refine ⟨w', [], t, by simp only [ostep, h1, g1, Option.map_some], fun ht => ?_⟩
    obtain ⟨l', k1, k2, k3⟩ := g2 ht
    rw [cchars_terminated h2] at k3
    exact ⟨s, l', h3, k1, k2, by simpa using k3, by simp⟩
  | double p bits arr =>
    obtain ⟨s, h1, h2, h3⟩ := double_text p bits (arr := arr) hc
    obtain ⟨w', t, g1, g2⟩ := buf (b := s ++ [0]) (by simp)
    refine ⟨w', [], t, by simp only [ostep, h1, g1, Option.map_some], fun ht => ?_⟩
    obtain ⟨l', k1, k2, k3⟩ := g2 ht
    rw [cchars_terminated h2] at k3
    exact ⟨s, l', h3, k1, k2, by simpa using k3, by simp⟩
  | text b =>
    obtain ⟨w', t, g1, g2⟩ := buf hc
    refine ⟨w', [], t, by simp only [ostep, g1, Option.map_some], fun ht => ?_⟩
    obtain ⟨l', k1, k2, k3⟩ := g2 ht
    exact ⟨_, l', rfl, k1, k2, by simpa using k3, by simp⟩
  | flush =>
    have hA := S.good 0 l (by simp [ostate])
    obtain ⟨v, hv, h3, _, _, _⟩ := Vector.observe S.inv hA
    have wv := S.inv.wf 0 v hv
    have hvl : Vector.view w.heap v = enc l := by
      rw [Vector.abs_of_vec hv] at hA
      exact Option.some.inj hA
    have hsz : v.size = l.length + 1 := by rw [h3]; simp [enc]
    have h5 := Vector.wf_size_le wv
    have hpr := printLoop_ok (p := reader w.heap v) hl (fun i hi => by
      have := holds_reader wv hvl i hi
      rw [List.getElem?_eq_getElem (by simp; omega)]
      rwa [List.getElem?_eq_getElem (by simp; omega), Option.getD_some] at this) _ (v.capacity + 1) 0 rfl (by omega) (by omega)
    obtain ⟨w', t, A', g1, g2, _, g4, _⟩ := assignEmpty_ok S (tmp := 2) (i := 0) (by simp [ostate]) ⟨some l, by simp [ostate]⟩
    refine ⟨w', l, t, by simp only [ostep, hv, hpr, g1, Option.map_some, List.drop_zero], fun ht => ?_⟩
    refine ⟨[], [], rfl, ?_, by simp, by simp, by simp⟩
    rw [g4 ht] at g2
    convert g2 using 1
    funext j
    simp only [ostate, upd]
    split <;> simp_all

theorem orun_ok : ∀ (cs : List OCmd) {w : World Byte} {l : List Byte}, SInv w (ostate l) → (∀ c ∈ l, c ≠ 0) → (∀ c ∈ cs, Arg c) →
    ∃ w' out t, orun w cs = some (w', out, t) ∧ (t = false → ∃ ss l', List.Forall₂ TextOf cs ss ∧ SInv w' (ostate l') ∧
      (∀ c ∈ l', c ≠ 0) ∧ out ++ l' = l ++ ss.flatten ∧ (cs = [] → l' = l) ∧ (cs.getLast? = some .flush → l' = []))
  | [], w, l, S, hl, _ => ⟨w, [], false, rfl, fun _ => ⟨[], l, .nil, S, hl, by simp, fun _ => rfl, by simp⟩⟩
  | c :: cs, w, l, S, hl, ha => by
    obtain ⟨w1, out1, t1, h1, h2⟩ := ostep_ok S hl c (ha c (by simp))
    cases t1 with
    | true => exact ⟨w1, out1, true, by simp only [orun, h1], by simp⟩
    | false =>
      obtain ⟨s, l1, k1, k2, k3, k4, k5⟩ := h2 rfl
      obtain ⟨w2, out2, t2, g1, g2⟩ := orun_ok cs k2 k3 fun c hc => ha c (by simp [hc])
      refine ⟨w2, out1 ++ out2, t2, by simp only [orun, h1, g1], fun ht => ?_⟩
      obtain ⟨ss, l2, q1, q2, q3, q4, q5, q6⟩ := g2 ht
      refine ⟨s :: ss, l2, .cons k1 q1, q2, q3, ?_, by simp, ?_⟩
      · rw [List.append_assoc, q4, ← List.append_assoc, k4]; simp
      · intro hlast
        cases cs with
        | nil =>
          rw [q5 rfl]
          exact k5 (by simpa using hlast)
        | cons d ds => exact q6 (by simpa using hlast)

/-- C32, as far as it holds: for integers that `to_string` handles (C17, C18), all floats and doubles, and C strings, any program of insertions and flushes on a new
ostream is free of undefined behaviour, and unless an allocation fails, what has been printed followed by what is still buffered is
the concatenation of the inserted texts, each once and in order; if the last operation is a flush, everything has been printed.
Missing: integers outside these ranges (false by C17, C18), and `unsigned`, `long double`, whose `to_string` is not defined. -/
theorem c32_ostream_partial (fails : Nat → Nat → Bool) (fresh : Option Byte) (cs : List OCmd) (ha : ∀ c ∈ cs, Arg c)
    {w0 : World Byte} (h0 : sstep (World.start fails fresh) (.new 0) = some (w0, false)) :
    ∃ w out t, orun w0 cs = some (w, out, t) ∧ (t = false → ∃ ss rest, List.Forall₂ TextOf cs ss ∧ out ++ rest = ss.flatten ∧
      Vector.abs w 0 = some (rest.map some ++ [some 0]) ∧ (cs.getLast? = some .flush → out = ss.flatten)) := by
  obtain ⟨w1, t1, A1, h1, S1, p1, _⟩ := sstep_ok (sinv_start fails fresh) (.new 0) rfl
  rw [h0] at h1
  cases h1
  have := p1 rfl
  subst this
  have S : SInv w0 (ostate []) := by
    convert S1 using 1
    funext j; simp only [ostate, upd]
  obtain ⟨w, out, t, h1, h2⟩ := orun_ok cs S (by simp) ha
  refine ⟨w, out, t, h1, fun ht => ?_⟩
  obtain ⟨ss, l, q1, q2, q3, q4, q5, q6⟩ := h2 ht
  refine ⟨ss, l, q1, by simpa using q4, ?_, ?_⟩
  · exact q2.good 0 l (by simp [ostate])
  · intro hlast
    rw [q6 hlast] at q4
    simpa using q4

/-- C32 is false for integers that `to_string` does not handle: `os << -1000000000` is undefined behaviour in every state. -/
theorem c32_ostream_false (w : World Byte) (v : Int) (h1 : -2 ^ 31 ≤ v) (h2 : v ≤ -10 ^ 9) : ostep w (.int v) = none := by
  simp only [ostep, c17_to_string_false v h1 h2]

/-- The hypotheses are met by a program that inserts a number, a text, flushes, and goes on. -/
example : (∀ c ∈ ([.int (-42), .text [58, 0], .flush, .int64 7, .flush] : List OCmd), Arg c) ∧
    ((sstep (World.start (fun _ _ => false) none) (.new 0)).bind fun x =>
      orun x.1 [.int (-42), .text [58, 0], .flush, .int64 7, .flush]).map (·.2) = some ([45, 52, 50, 58, 55], false) := by
  refine ⟨?_, by decide +kernel⟩
  intro c hc
  simp only [List.mem_cons, List.not_mem_nil, or_false] at hc
  rcases hc with rfl | rfl | rfl | rfl | rfl <;> simp [Arg]

example : (∀ c ∈ ([.float false 0x3f800000 (List.replicate 16 7), .flush] : List OCmd), Arg c) ∧
    ((sstep (World.start (fun _ _ => false) none) (.new 0)).bind fun x =>
      orun x.1 [.float false 0x3f800000 (List.replicate 16 7), .flush]).map (·.2) = some (Ryu.bytes "1E0", false) := by
  refine ⟨?_, by decide +kernel⟩
  intro c hc
  simp only [List.mem_cons, List.not_mem_nil, or_false] at hc
  rcases hc with rfl | rfl <;> simp [Arg]

/-! ### C33 -/

/-- C33 is false: `operator<<(ostream&, const string&)` calls itself with the same arguments, so however many calls are made it has
not returned. -/
theorem c33_insert_string_false (os s n : Nat) : insertString os s n = none := by
  induction n with
  | zero => rfl
  | succ n ih => simp only [insertString, ih]

end Nanostl.Stream
