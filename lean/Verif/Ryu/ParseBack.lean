import Verif.Ryu.ParseText
import Verif.Ryu.Print

/-!
What `to_string` prints is in the grammar of the parsers.
-/

namespace Nanostl.Ryu
open Nanostl.Float
open Nanostl.Str (Byte digitsValue IsDecimal)

theorem sigLen_le (l : List Byte) : sigLen l ≤ l.length := by
  unfold sigLen
  exact (List.dropWhile_sublist _).length_le

theorem value_ge {d : Byte} {ds : List Byte} (hd : IsDigit d) (h : d ≠ 48) : 10 ^ ds.length ≤ digitsValue (d :: ds) := by
  rw [digitsValue_cons]
  have h1 : 1 ≤ d.toNat - 48 := by
    have := hd.1
    rcases Nat.eq_or_lt_of_le this with e | e
    · exact absurd (UInt8.toNat_inj.1 e.symm) h
    · omega
  have := Nat.mul_le_mul_right (10 ^ ds.length) h1
  omega

/-- Scientific notation is in the grammar of the parser. -/
theorem sci_denotes {maxD : Nat} {s : List Byte} {neg : Bool} {c : Nat} {k : Int} (h : IsSci s neg c k) (hc : c < 10 ^ maxD)
    (hk : ∀ L, Len c L → (k + L - 1).natAbs < 10 ^ 4) (h0 : c = 0 → k.natAbs < 10 ^ 4) : Denotes maxD s neg c k := by
  obtain ⟨d, ds, xs, x, hs, hd, hz, hv, hx, hkx⟩ := h
  have hdd := hd d List.mem_cons_self
  have hxb : x.natAbs < 10 ^ 4 := by
    by_cases e : d = 48
    · have := hz e
      subst this; subst e
      have hc0 : c = 0 := by rw [← hv]; decide
      have := h0 hc0
      simp at hkx
      omega
    · have h1 := value_ge (ds := ds) hdd e
      have h2 := digitsValue_lt (d :: ds) hd
      rw [hv] at h1 h2
      have := hk (ds.length + 1) ⟨by rwa [Nat.add_sub_cancel], h2, by omega⟩
      omega
  obtain ⟨es, hxs, hne, hed, hez, hev⟩ := hx
  have hes : sigLen es ≤ 4 := by
    rcases es with _ | ⟨a, es⟩
    · exact absurd rfl hne
    · by_cases e : a = 48
      · have := hez (by rw [e]; rfl)
        rw [this]; decide
      · have h1 := value_ge (ds := es) (hed a List.mem_cons_self) e
        rw [hev] at h1
        have h2 : es.length < 4 := (Nat.pow_lt_pow_iff_right (a := 10) (by decide)).1 (Nat.lt_of_le_of_lt h1 hxb)
        have := sigLen_le (a :: es)
        rw [List.length_cons] at this
        omega
  have hsl : sigLen ([d] ++ ds) ≤ maxD := by
    by_cases e : d = 48
    · rw [hz e, e]; exact Nat.zero_le _
    · have h1 := value_ge (ds := ds) hdd e
      rw [hv] at h1
      have h2 : ds.length < maxD := (Nat.pow_lt_pow_iff_right (a := 10) (by decide)).1 (Nat.lt_of_le_of_lt h1 hc)
      have := sigLen_le ([d] ++ ds)
      rw [List.length_append, List.length_singleton] at this
      omega
  refine ⟨[d], if ds = [] then [] else 46 :: ds, ds, 69 :: xs, x, ?_, hd, ?_, ?_, hsl, hv.symm, hkx, ?_⟩
  · rw [hs]; rfl
  · by_cases e : ds = []
    · rw [if_pos e, e]; exact .none
    · rw [if_neg e]; exact .some ds
  · rw [hxs]
    by_cases e : x < 0
    · rw [if_pos e]
      have := ExpText.minus 69 es (Or.inr rfl) hed hes
      rwa [hev, show -(x.natAbs : Int) = x by omega] at this
    · rw [if_neg e]
      have := ExpText.plain 69 es (Or.inr rfl) hed hes
      rwa [hev, show (x.natAbs : Int) = x by omega] at this
  · rw [hs]; cases neg <;> simp

/-- Zero is written in one way. -/
theorem zero_exp {s : List Byte} {neg : Bool} {c : Nat} {k : Int} (h2 : IsSci s neg c k) (h6 : IsSci s neg 0 0) (hc0 : c = 0) : k = 0 := by
  obtain ⟨d, ds, xs, x, a1, a2, a3, a4, a5, a6⟩ := h2
  obtain ⟨d', ds', xs', x', b1, b2, b3, b4, b5, b6⟩ := h6
  have z : ∀ (d : Byte) (ds : List Byte), IsDigit d → (d = 48 → ds = []) → digitsValue (d :: ds) = 0 → d = 48 ∧ ds = [] := by
    intro d ds g1 g2 g3
    by_cases e : d = 48
    · exact ⟨e, g2 e⟩
    · have := value_ge (ds := ds) g1 e
      have := Nat.pow_pos (a := 10) (n := ds.length) (by decide)
      omega
  obtain ⟨rfl, rfl⟩ := z d ds (a2 d List.mem_cons_self) a3 (by rw [a4, hc0])
  obtain ⟨rfl, rfl⟩ := z d' ds' (b2 d' List.mem_cons_self) b3 b4
  rw [a1] at b1
  have hxx : xs = xs' := by simpa using b1
  subst hxx
  have hx' : x' = 0 := by simp at b6; omega
  obtain ⟨es, q1, q2, q3, q4, q5⟩ := b5
  obtain ⟨es', r1, r2, r3, r4, r5⟩ := a5
  rw [hx', if_neg (by decide), List.nil_append] at q1
  subst q1
  have : ¬ x < 0 := by
    intro hx
    rw [if_pos hx] at r1
    have := q3 45 (by rw [r1]; simp)
    exact absurd this.1 (by decide)
  rw [if_neg this, List.nil_append] at r1
  subst r1
  rw [q5, hx'] at r5
  simp at a6
  omega

theorem double_denotes (p : Bool) {bits : Nat} {buf : List Byte} (hbuf : buf.length = 25) (hfin : f64.expo bits ≠ f64.emax) :
    ∃ s c k, toStringDouble p bits buf = some s ∧ s.length < 25 ∧ Denotes 17 s (f64.sign bits) c k ∧ DecNearest f64 c k (f64.low bits) := by
  obtain ⟨s, c, k, h1, h2, h3, h4, h5⟩ := toStringDouble_best p hbuf hfin
  refine ⟨s, c, k, h1, h4, ?_, h3.near⟩
  have hlow : f64.low bits = f64.expo bits * 4503599627370496 + f64.frac bits := f64.low_eq bits
  have hm : f64.frac bits < 4503599627370496 := f64.frac_lt bits
  have he : f64.expo bits < 2047 := by
    have : f64.expo bits ≤ 2047 := f64.expo_le bits
    have : f64.emax = 2047 := rfl
    omega
  by_cases h0 : f64.low bits = 0
  · have h6 := toStringDouble_zero p hbuf h0 h1
    have hc0 : c = 0 := by
      have := h3.shortest 0 0 0 (by rw [h0]; exact (decBest_zero f64).near) (by decide)
      omega
    have hk0 : k = 0 := zero_exp h2 h6 hc0
    rw [hc0, hk0]
    exact sci_denotes h6 (by decide) (fun L hL => by have := hL.1; have := Nat.pow_pos (a := 10) (n := L - 1) (by decide); omega) (fun _ => by decide)
  · obtain ⟨o, k', e1, hb, ho⟩ := d2sDecimal_best p hm he (by omega)
    rw [h5 h0] at e1
    have hinf : f64.low bits < f64.inf := by
      rw [hlow]; show _ < 2047 * 4503599627370496
      omega
    have hc : c < 10 ^ 17 := by
      have : c = o := congrArg Prod.fst (Option.some.inj e1)
      rw [this]; exact Nat.lt_of_lt_of_le ho (by norm_num)
    refine sci_denotes h2 hc (fun L hL => ?_) (fun e => ?_)
    · have := exp_bound mag_inf64 one64 (by decide) (by omega) hinf h3.near hL
      exact Nat.lt_trans this (by norm_num)
    · exact absurd (e ▸ h3.near) (dec_zero (by omega))

theorem float_denotes (p : Bool) {bits : Nat} {buf : List Byte} (hbuf : buf.length = 16) (hfin : f32.expo bits ≠ f32.emax) :
    ∃ s c k, toStringFloat p bits buf = some s ∧ s.length < 16 ∧ Denotes 9 s (f32.sign bits) c k ∧ DecNearest f32 c k (f32.low bits) := by
  obtain ⟨s, c, k, h1, h2, h3, h4, h5⟩ := toStringFloat_best p hbuf hfin
  refine ⟨s, c, k, h1, h4, ?_, h3.near⟩
  have hlow : f32.low bits = f32.expo bits * 8388608 + f32.frac bits := f32.low_eq bits
  have hm : f32.frac bits < 8388608 := f32.frac_lt bits
  have he : f32.expo bits < 255 := by
    have : f32.expo bits ≤ 255 := f32.expo_le bits
    have : f32.emax = 255 := rfl
    omega
  by_cases h0 : f32.low bits = 0
  · have h6 := toStringFloat_zero p hbuf h0 h1
    have hc0 : c = 0 := by
      have := h3.shortest 0 0 0 (by rw [h0]; exact (decBest_zero f32).near) (by decide)
      omega
    have hk0 : k = 0 := zero_exp h2 h6 hc0
    rw [hc0, hk0]
    exact sci_denotes h6 (by decide) (fun L hL => by have := hL.1; have := Nat.pow_pos (a := 10) (n := L - 1) (by decide); omega) (fun _ => by decide)
  · obtain ⟨o, k', e1, hb, ho⟩ := f2d_best p hm he (by omega)
    rw [h5 h0] at e1
    have hinf : f32.low bits < f32.inf := by
      rw [hlow]; show _ < 255 * 8388608
      omega
    have hc : c < 10 ^ 9 := by
      have : c = o := congrArg Prod.fst (Option.some.inj e1)
      rw [this]; exact Nat.lt_of_lt_of_le ho (by norm_num)
    refine sci_denotes h2 hc (fun L hL => ?_) (fun e => ?_)
    · have := exp_bound mag_inf32 one32 (by decide) (by omega) hinf h3.near hL
      exact Nat.lt_trans this (by norm_num)
    · exact absurd (e ▸ h3.near) (dec_zero (by omega))

end Nanostl.Ryu
