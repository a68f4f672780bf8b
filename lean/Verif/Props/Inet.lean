import Verif.Model.Inet
import Verif.Props.Buffer
import Verif.Spec.Inet

/-!
# C110: hosts as texts
-/

namespace Verif.Props

open Verif Verif.Spec

/-! ## Numbers -/

theorem char_codes : '0'.toNat = 48 ∧ '9'.toNat = 57 ∧ 'a'.toNat = 97 ∧ 'f'.toNat = 102 ∧ 'A'.toNat = 65 ∧ 'F'.toNat = 70 :=
  ⟨rfl, rfl, rfl, rfl, rfl, rfl⟩

theorem inet_digit (c : Char) : Inet.digit c = digitValue c := by
  have h : ∀ a b : Char, (a ≤ b) = (a.toNat ≤ b.toNat) := fun a b => by
    rw [Char.le_def, UInt32.le_iff_toNat_le]; rfl
  obtain ⟨c1, c2, c3, c4, c5, c6⟩ := char_codes
  simp only [Inet.digit, digitValue, h, c1, c2, c3, c4, c5, c6]
  repeat' split
  all_goals first | rfl | (simp; omega) | omega

/-- The next character does not continue a number of base `b`. -/
def NoDigit (b : Nat) (rest : List Char) : Prop := ∀ c, rest.head? = some c → ∀ d, digitValue c = some d → b ≤ d

theorem number_split (b v : Nat) (cs : List Char) :
    ∃ ds, DigitsOf b ds ∧ cs = ds ++ (Inet.number b v cs).2 ∧ NoDigit b (Inet.number b v cs).2 ∧
      (Inet.number b v cs).1 = ds.foldl (fun v c => v * b + (digitValue c).getD 0) v := by
  induction cs generalizing v with
  | nil => exact ⟨[], by simp [DigitsOf], rfl, by simp [NoDigit, Inet.number], rfl⟩
  | cons c cs ih =>
    rw [Inet.number, inet_digit]
    cases hd : digitValue c with
    | none => exact ⟨[], by simp [DigitsOf], rfl, by simp [NoDigit, hd], rfl⟩
    | some d =>
      dsimp only
      by_cases hb : d < b
      · rw [if_pos hb]
        obtain ⟨ds, h1, h2, h3, h4⟩ := ih (v * b + d)
        refine ⟨c :: ds, ?_, ?_, h3, ?_⟩
        · intro x hx
          rcases List.mem_cons.mp hx with rfl | hx
          · exact ⟨d, hd, hb⟩
          · exact h1 x hx
        · rw [List.cons_append, ← h2]
        · rw [h4, List.foldl_cons, hd]; rfl
      · rw [if_neg hb]
        exact ⟨[], by simp [DigitsOf], rfl, by simp [NoDigit, hd]; omega, rfl⟩

theorem number_eq (b v : Nat) (ds rest : List Char) (hd : DigitsOf b ds) (he : NoDigit b rest) :
    Inet.number b v (ds ++ rest) = (ds.foldl (fun v c => v * b + (digitValue c).getD 0) v, rest) := by
  induction ds generalizing v with
  | nil =>
    cases rest with
    | nil => rfl
    | cons c cs =>
      rw [List.nil_append, Inet.number, inet_digit]
      cases hc : digitValue c with
      | none => rfl
      | some d =>
        dsimp only
        rw [if_neg (Nat.not_lt.mpr (he c rfl d hc))]
        rfl
  | cons c ds ih =>
    obtain ⟨d, h1, h2⟩ := hd c (by simp)
    rw [List.cons_append, Inet.number, inet_digit, h1]
    dsimp only
    rw [if_pos h2, ih _ fun c hc => hd c (by simp [hc]), List.foldl_cons, h1]
    rfl

/-- What may follow a number in a host: nothing, a dot or a space. -/
def Stops (rest : List Char) : Prop := ∀ c, rest.head? = some c → digitValue c = none ∧ c ≠ 'x' ∧ c ≠ 'X'

theorem Stops.ends {rest : List Char} (h : Stops rest) (b : Nat) : NoDigit b rest := by
  intro c hc d hd
  rw [(h c hc).1] at hd; cases hd

theorem digit_not_x (c : Char) (d : Nat) (h : digitValue c = some d) : c ≠ 'x' ∧ c ≠ 'X' := by
  constructor <;> rintro rfl <;> simp [digitValue] at h

theorem strtoul_number (t : List Char) (v : Nat) (rest : List Char) (hn : CNumber t v) (hs : Stops rest) :
    Inet.strtoul (t ++ rest) = (v, rest) := by
  cases hn with
  | dec _ h0 h1 h2 =>
    cases t with
    | nil => exact absurd rfl h0
    | cons c t =>
      have hc : c ≠ '0' := by simpa using h1
      rw [List.cons_append, Inet.strtoul]
      · rw [← List.cons_append, number_eq 10 0 _ _ h2 (hs.ends 10)]; rfl
      · intro _ h; injection h with h _; exact hc h
      · intro _ h; injection h with h _; exact hc h
      · intro _ h; injection h with h _; exact hc h
  | oct t h =>
    have hx : ∀ x u, t ++ rest = x :: u → x ≠ 'x' ∧ x ≠ 'X' := by
      intro x u he
      cases t with
      | nil =>
        rw [List.nil_append] at he
        exact (hs x (by rw [he]; rfl)).2
      | cons c t =>
        rw [List.cons_append] at he
        injection he with he _
        subst he
        obtain ⟨d, hd, _⟩ := h c (by simp)
        exact digit_not_x c d hd
    rw [List.cons_append, Inet.strtoul]
    · rw [number_eq 8 0 _ _ h (hs.ends 8)]; rfl
    · intro u he; exact (hx _ _ he).1 rfl
    · intro u he; exact (hx _ _ he).2 rfl
  | hex x t hx h0 h =>
    have hh : Inet.startsHex (t ++ rest) = true := by
      cases t with
      | nil => exact absurd rfl h0
      | cons c t =>
        obtain ⟨d, hd, _⟩ := h c (by simp)
        simp [Inet.startsHex, inet_digit, hd]
    rcases hx with rfl | rfl
    · simp only [List.cons_append, Inet.strtoul, hh, if_true]
      rw [number_eq 16 0 _ _ h (hs.ends 16)]; rfl
    · simp only [List.cons_append, Inet.strtoul, hh, if_true]
      rw [number_eq 16 0 _ _ h (hs.ends 16)]; rfl

theorem digit_lt (c : Char) (d : Nat) (h : digitValue c = some d) : d < 16 := by
  obtain ⟨c1, c2, c3, c4, c5, c6⟩ := char_codes
  simp only [digitValue, c1, c2, c3, c4, c5, c6] at h
  split at h
  · injection h with h; omega
  · split at h
    · injection h with h; omega
    · split at h
      · injection h with h; omega
      · cases h

theorem decimal_digit (c : Char) (h : c.isDigit = true) : ∃ d, digitValue c = some d ∧ d < 10 := by
  simp only [Char.isDigit, Bool.and_eq_true, decide_eq_true_eq] at h
  have h1 : '0'.toNat ≤ c.toNat := UInt32.le_iff_toNat_le.mp h.1
  have h2 : c.toNat ≤ '9'.toNat := UInt32.le_iff_toNat_le.mp h.2
  refine ⟨c.toNat - '0'.toNat, ?_, ?_⟩
  · rw [digitValue, if_pos ⟨h1, h2⟩]
  · simp at h1 h2 ⊢; omega

theorem strtoul_split (c : Char) (cs : List Char) (hc : c.isDigit = true) :
    ∃ t, CNumber t (Inet.strtoul (c :: cs)).1 ∧ c :: cs = t ++ (Inet.strtoul (c :: cs)).2 := by
  have hexa : ∀ x t, (x = 'x' ∨ x = 'X') → Inet.startsHex t = true →
      ∃ u, CNumber u (Inet.number 16 0 t).1 ∧ '0' :: x :: t = u ++ (Inet.number 16 0 t).2 := by
    intro x t hx hs
    obtain ⟨ds, h1, h2, h3, h4⟩ := number_split 16 0 t
    have hne : ds ≠ [] := by
      rintro rfl
      rw [List.nil_append] at h2
      cases t with
      | nil => simp [Inet.startsHex] at hs
      | cons y t =>
        rw [← h2] at h3
        simp only [Inet.startsHex, inet_digit] at hs
        obtain ⟨d, hd⟩ := Option.isSome_iff_exists.mp hs
        have := h3 y rfl d hd
        have := digit_lt y d hd
        omega
    refine ⟨'0' :: x :: ds, ?_, by rw [List.cons_append, List.cons_append, ← h2]⟩
    rw [h4]
    exact .hex x ds hx hne h1
  have zero : ∀ t, ∃ u, CNumber u 0 ∧ '0' :: t = u ++ t := fun t => ⟨['0'], .oct [] (by simp [DigitsOf]), rfl⟩
  unfold Inet.strtoul
  split
  · rename_i t h
    rw [h]
    split
    · rename_i hs; exact hexa 'x' t (.inl rfl) hs
    · exact zero _
  · rename_i t h
    rw [h]
    split
    · rename_i hs; exact hexa 'X' t (.inr rfl) hs
    · exact zero _
  · rename_i t h1 h2 h
    rw [h]
    obtain ⟨ds, h1, h2, h3, h4⟩ := number_split 8 0 t
    refine ⟨'0' :: ds, ?_, by rw [List.cons_append, ← h2]⟩
    rw [h4]
    exact .oct ds h1
  · rename_i h1 h2 h3
    obtain ⟨ds, h1, h2, h3', h4⟩ := number_split 10 0 (c :: cs)
    refine ⟨ds, ?_, h2⟩
    rw [h4]
    obtain ⟨d, hd, hd'⟩ := decimal_digit c hc
    cases ds with
    | nil =>
      rw [List.nil_append] at h2
      rw [← h2] at h3'
      have := h3' c rfl d hd
      omega
    | cons x ds =>
      refine .dec _ (by simp) ?_ h1
      rw [List.cons_append] at h2
      injection h2 with h2 h2'
      subst h2
      intro h0
      have : c = '0' := by simpa using h0
      subst this
      exact h3 _ rfl

/-! ## The numbers of a host -/

theorem space_iff (c : Char) : Inet.isSpace c = true ↔ Space c := by
  have h : ∀ a b : Char, (a ≤ b) = (a.toNat ≤ b.toNat) := fun a b => by
    rw [Char.le_def, UInt32.le_iff_toNat_le]; rfl
  have e : ∀ a : Char, (c = a) = (c.toNat = a.toNat) := fun a => by
    rw [eq_iff_iff]
    exact ⟨fun h => by rw [h], fun h => Char.ext (UInt32.toNat_inj.mp h)⟩
  simp only [Inet.isSpace, Space, Bool.or_eq_true, Bool.and_eq_true, decide_eq_true_eq, h, List.mem_cons, List.not_mem_nil, or_false, e]
  rw [show '\t'.toNat = 9 from rfl, show '\r'.toNat = 13 from rfl, show ' '.toNat = 32 from rfl, show '\n'.toNat = 10 from rfl,
    show '\x0b'.toNat = 11 from rfl, show '\x0c'.toNat = 12 from rfl]
  omega

theorem space_stops {c : Char} (h : Space c) : digitValue c = none ∧ c ≠ 'x' ∧ c ≠ 'X' ∧ c ≠ '.' := by
  simp only [Space, List.mem_cons, List.not_mem_nil, or_false] at h
  rcases h with rfl | rfl | rfl | rfl | rfl | rfl <;> decide

theorem dot_stops : digitValue '.' = none ∧ '.' ≠ 'x' ∧ '.' ≠ 'X' := by decide

theorem number_head (t : List Char) (v : Nat) (h : CNumber t v) : ∃ c u, t = c :: u ∧ c.isDigit = true := by
  cases h with
  | dec _ h0 h1 h2 =>
    cases t with
    | nil => exact absurd rfl h0
    | cons c t =>
      refine ⟨c, t, rfl, ?_⟩
      obtain ⟨d, hd, hlt⟩ := h2 c (by simp)
      obtain ⟨c1, c2, c3, c4, c5, c6⟩ := char_codes
      simp only [digitValue, c1, c2, c3, c4, c5, c6] at hd
      split at hd
      · rename_i hc
        simp only [Char.isDigit, Bool.and_eq_true, decide_eq_true_eq]
        exact ⟨UInt32.le_iff_toNat_le.mpr hc.1, UInt32.le_iff_toNat_le.mpr hc.2⟩
      · split at hd
        · injection hd with hd; omega
        · split at hd
          · injection hd with hd; omega
          · cases hd
  | oct t h => exact ⟨'0', t, rfl, rfl⟩
  | hex x t hx h0 h => exact ⟨'0', x :: t, rfl, rfl⟩

theorem parts_step (k : Nat) (c : Char) (u : List Char) (v : Nat) (rest : List Char) (hc : c.isDigit = true)
    (h : Inet.strtoul (c :: u) = (v, rest)) :
    Inet.parts k (c :: u) = if v > 0xFFFFFFFF then none else
      match rest with
      | [] => some [v]
      | x :: t =>
        if x = '.' then
          match k with
          | 0 => none
          | k + 1 => if v > 0xFF then none else (Inet.parts k t).map (v :: ·)
        else if Inet.isSpace x then some [v] else none := by
  rw [Inet.parts.eq_def]
  simp only [hc, if_true, h]
  cases rest <;> cases k <;> rfl

theorem parts_sound (k : Nat) (cs : List Char) (vs : List Nat) (h : Inet.parts k cs = some vs) :
    HostNumbers cs vs ∧ vs.length ≤ k + 1 ∧ (∀ v ∈ vs.dropLast, v ≤ 0xFF) ∧ (∀ v ∈ vs, v ≤ 0xFFFFFFFF) := by
  cases cs with
  | nil => rw [Inet.parts.eq_def] at h; cases h
  | cons c u =>
    cases hc : c.isDigit with
    | false => rw [Inet.parts.eq_def] at h; simp [hc] at h
    | true =>
      obtain ⟨t, h1, h2⟩ := strtoul_split c u hc
      generalize hs : Inet.strtoul (c :: u) = q at h1 h2
      obtain ⟨v, rest⟩ := q
      rw [parts_step k c u v rest hc hs] at h
      dsimp only at h1 h2
      split at h
      · cases h
      · rename_i hv
        rw [h2]
        split at h
        · injection h with h
          subst h
          refine ⟨.last t v [] h1 (by simp), by simp, by simp, by simp; omega⟩
        · rename_i x r
          by_cases hx : x = '.'
          · subst hx
            rw [if_pos rfl] at h
            cases k with
            | zero => cases h
            | succ k =>
              dsimp only at h
              split at h
              · cases h
              · rename_i hv'
                cases hp : Inet.parts k r with
                | none => rw [hp] at h; cases h
                | some ws =>
                  rw [hp] at h
                  injection h with h
                  subst h
                  obtain ⟨a, b, d, e⟩ := parts_sound k r ws hp
                  have hne : ws ≠ [] := by rintro rfl; cases a
                  refine ⟨.more t v r ws h1 a, by simp; omega, ?_, ?_⟩
                  · rw [List.dropLast_cons_of_ne_nil hne]
                    intro x hx
                    rcases List.mem_cons.mp hx with rfl | hx
                    · omega
                    · exact d x hx
                  · intro x hx
                    rcases List.mem_cons.mp hx with rfl | hx
                    · omega
                    · exact e x hx
          · rw [if_neg hx] at h
            split at h
            · rename_i hx
              injection h with h
              subst h
              exact ⟨.last t v (x :: r) h1 (by simpa using (space_iff x).mp hx), by simp, by simp, by simp; omega⟩
            · cases h
  termination_by k

theorem parts_complete (cs : List Char) (vs : List Nat) (h : HostNumbers cs vs) (k : Nat) (hk : vs.length ≤ k + 1)
    (hd : ∀ v ∈ vs.dropLast, v ≤ 0xFF) (hl : ∀ v ∈ vs, v ≤ 0xFFFFFFFF) : Inet.parts k cs = some vs := by
  induction h generalizing k with
  | last t v tail hn ht =>
    have hs := strtoul_number t v tail hn fun c hc => ⟨(space_stops (ht c hc)).1, (space_stops (ht c hc)).2.1, (space_stops (ht c hc)).2.2.1⟩
    obtain ⟨c, u, rfl, hc⟩ := number_head t v hn
    rw [List.cons_append] at hs ⊢
    rw [parts_step k c _ v tail hc hs, if_neg (by have := hl v (by simp); omega)]
    cases tail with
    | nil => rfl
    | cons x r =>
      have hx := ht x rfl
      have := (space_stops hx).2.2.2
      dsimp only
      rw [if_neg this, (space_iff x).mpr hx]
      rfl
  | more t v rest ws hn hr ih =>
    have hs := strtoul_number t v ('.' :: rest) hn fun c hc => by
      have : '.' = c := by simpa using hc
      subst this; exact dot_stops
    have hne : ws ≠ [] := by rintro rfl; cases hr
    obtain ⟨c, u, rfl, hc⟩ := number_head t v hn
    rw [List.cons_append] at hs ⊢
    rw [parts_step k c _ v _ hc hs, if_neg (by have := hl v (by simp); omega)]
    rw [List.dropLast_cons_of_ne_nil hne] at hd
    cases k with
    | zero =>
      cases ws with
      | nil => exact absurd rfl hne
      | cons => simp at hk
    | succ k =>
      dsimp only
      rw [if_pos rfl, if_neg (by have := hd v (by simp); omega), ih k (by simpa using hk) (fun x hx => hd x (by simp [hx])) fun x hx => hl x (by simp [hx])]
      rfl

/-! ## The address -/

theorem octets_or (A B C : BitVec 8) (V : BitVec 32) :
    octets (A.setWidth 32 ||| (B.setWidth 32 <<< 8) ||| (C.setWidth 32 <<< 16) |||
      (((V &&& 0xFF#32) <<< 24) ||| (((V >>> 8) &&& 0xFF#32) <<< 16) ||| (((V >>> 16) &&& 0xFF#32) <<< 8) ||| (V >>> 24))) =
      [A ||| (V >>> 24).setWidth 8, B ||| (V >>> 16).setWidth 8, C ||| (V >>> 8).setWidth 8, V.setWidth 8] := by
  have m : ∀ i, (0xFF#32).getLsbD i = decide (i < 8) := by
    intro i
    by_cases h : i < 32
    · have : ∀ j : Fin 32, (0xFF#32).getLsbD j.val = decide (j.val < 8) := by decide
      exact this ⟨i, h⟩
    · rw [BitVec.getLsbD_of_ge _ _ (by omega)]
      simp; omega
  unfold octets
  congr 1
  · apply BitVec.eq_of_getLsbD_eq
    intro i hi
    simp only [BitVec.getLsbD_setWidth, BitVec.getLsbD_or, BitVec.getLsbD_shiftLeft, BitVec.getLsbD_and, BitVec.getLsbD_ushiftRight, m]
    simp [hi, show i < 32 by omega, show i < 16 by omega, show i < 24 by omega]
  · congr 1
    · apply BitVec.eq_of_getLsbD_eq
      intro i hi
      simp only [BitVec.getLsbD_setWidth, BitVec.getLsbD_or, BitVec.getLsbD_shiftLeft, BitVec.getLsbD_and, BitVec.getLsbD_ushiftRight, m]
      simp [hi, show 8 + i < 32 by omega, show 8 + i < 16 by omega, show 8 + i < 24 by omega, Nat.add_sub_cancel_left,
        show ¬ 8 + i < 8 by omega, show i < 32 by omega,
        BitVec.getLsbD_of_ge V (24 + (8 + i)) (by omega)]
    · congr 1
      · apply BitVec.eq_of_getLsbD_eq
        intro i hi
        simp only [BitVec.getLsbD_setWidth, BitVec.getLsbD_or, BitVec.getLsbD_shiftLeft, BitVec.getLsbD_and, BitVec.getLsbD_ushiftRight, m]
        simp [hi, show 16 + i < 32 by omega, show 16 + i < 24 by omega, Nat.add_sub_cancel_left, show 16 + i - 8 = 8 + i by omega,
          show ¬ 16 + i < 8 by omega, show ¬ 16 + i < 16 by omega, show ¬ 8 + i < 8 by omega, show i < 32 by omega,
          BitVec.getLsbD_of_ge A (16 + i) (by omega),
          BitVec.getLsbD_of_ge V (24 + (16 + i)) (by omega)]
      · congr 1
        apply BitVec.eq_of_getLsbD_eq
        intro i hi
        simp only [BitVec.getLsbD_setWidth, BitVec.getLsbD_or, BitVec.getLsbD_shiftLeft, BitVec.getLsbD_and, BitVec.getLsbD_ushiftRight, m]
        simp [hi, show 24 + i < 32 by omega, Nat.add_sub_cancel_left, show 24 + i - 8 = 16 + i by omega, show 24 + i - 16 = 8 + i by omega,
          show ¬ 24 + i < 8 by omega, show ¬ 24 + i < 16 by omega, show ¬ 24 + i < 24 by omega, show ¬ 16 + i < 8 by omega,
          show ¬ 8 + i < 8 by omega, BitVec.getLsbD_of_ge A (24 + i) (by omega), BitVec.getLsbD_of_ge B (16 + i) (by omega),
          BitVec.getLsbD_of_ge V (24 + (24 + i)) (by omega)]

theorem octets_word (a b c v : Nat) (init : List Nat) (ha : init.getD 0 0 = a) (hb : init.getD 1 0 = b) (hc : init.getD 2 0 = c)
    (la : a < 256) (lb : b < 256) (lc : c < 256) (lv : v < 2 ^ 32) :
    (octets (Inet.word init v)).map BitVec.toNat = [a ||| v / 2 ^ 24, b ||| v / 2 ^ 16 % 256, c ||| v / 2 ^ 8 % 256, v % 256] := by
  have e : ∀ x, x < 256 → BitVec.ofNat 32 x = (BitVec.ofNat 8 x).setWidth 32 := fun x hx => by
    apply BitVec.eq_of_toNat_eq; simp; omega
  unfold Inet.word
  rw [ha, hb, hc, e a la, e b lb, e c lc]
  rw [octets_or]
  simp [Nat.shiftRight_eq_div_pow, Nat.mod_eq_of_lt la, Nat.mod_eq_of_lt lb, Nat.mod_eq_of_lt lc,
    show v % 4294967296 = v from Nat.mod_eq_of_lt lv, show v / 16777216 % 256 = v / 16777216 from Nat.mod_eq_of_lt (by omega)]

theorem octets_inj {x y : BitVec 32} (h : (octets x).map BitVec.toNat = (octets y).map BitVec.toNat) : x = y := by
  simp only [octets, List.map_cons, List.map_nil, List.cons.injEq, and_true, BitVec.toNat_setWidth, BitVec.toNat_ushiftRight,
    Nat.shiftRight_eq_div_pow] at h
  apply BitVec.eq_of_toNat_eq
  have := x.isLt
  have := y.isLt
  omega

theorem aton_iff (cs : List Char) (x : BitVec 32) :
    Inet.aton cs = some x ↔ ∃ vs, HostNumbers cs vs ∧ addressOf vs = some ((octets x).map BitVec.toNat) ∧ Inet.parts 3 cs = some vs := by
  have key : ∀ vs, HostNumbers cs vs → Inet.parts 3 cs = some vs →
      (Inet.aton cs = some x ↔ addressOf vs = some ((octets x).map BitVec.toNat)) := by
    intro vs hv hp
    obtain ⟨_, h2, h3, h4⟩ := parts_sound 3 cs vs hp
    unfold Inet.aton
    rw [hp]
    dsimp only
    have step : ∀ (init : List Nat) (val a b c : Nat) (l : Nat) (bytes : List Nat), vs = init ++ [val] →
        init.getD 0 0 = a → init.getD 1 0 = b → init.getD 2 0 = c →
        a < 256 → b < 256 → c < 256 → val < 2 ^ 32 → Inet.limit init.length + 1 = l →
        (val < l → [a ||| val / 2 ^ 24, b ||| val / 2 ^ 16 % 256, c ||| val / 2 ^ 8 % 256, val % 256] = bytes) →
        addressOf vs = (if val < l then some bytes else none) →
        ((if vs.getLastD 0 > Inet.limit vs.dropLast.length then none else some (Inet.word vs.dropLast (vs.getLastD 0))) = some x ↔
          addressOf vs = some ((octets x).map BitVec.toNat)) := by
      intro init val a b c l bytes e ha hb hc la lb lc lv hl hbytes hadd
      rw [hadd, e]
      simp only [List.dropLast_concat, List.getLastD_concat]
      by_cases hlt : val < l
      · rw [if_neg (by omega), if_pos hlt, ← hbytes hlt, ← octets_word a b c val init ha hb hc la lb lc lv]
        simp only [Option.some.injEq]
        exact ⟨fun h => by rw [h], fun h => octets_inj h⟩
      · rw [if_pos (by omega), if_neg hlt]
        simp
    match vs, h2, h3, h4, step with
    | [], _, _, _, _ => cases hv
    | [d], _, h3, h4, step =>
      refine step [] d 0 0 0 (2 ^ 32) (bigEndian 4 d) rfl rfl rfl rfl (by omega) (by omega) (by omega) (by have := h4 d (by simp); omega) (by simp [Inet.limit]) ?_ (by simp [addressOf])
      intro h
      simp [bigEndian]
      omega
    | [a, d], _, h3, h4, step =>
      have ha := h3 a (by simp)
      refine step [a] d a 0 0 (2 ^ 24) (a :: bigEndian 3 d) rfl rfl rfl rfl (by omega) (by omega) (by omega) (by have := h4 d (by simp); omega) (by simp [Inet.limit]) ?_ ?_
      · intro h
        simp [bigEndian]
        rw [show d / 16777216 = 0 by omega]
        simp
        omega
      · simp [addressOf, show a < 256 by omega]
    | [a, b, d], _, h3, h4, step =>
      have ha := h3 a (by simp)
      have hb := h3 b (by simp)
      refine step [a, b] d a b 0 (2 ^ 16) (a :: b :: bigEndian 2 d) rfl rfl rfl rfl (by omega) (by omega) (by omega) (by have := h4 d (by simp); omega) (by simp [Inet.limit]) ?_ ?_
      · intro h
        simp [bigEndian]
        rw [show d / 16777216 = 0 by omega, show d / 65536 % 256 = 0 by omega]
        simp
        try omega
      · simp [addressOf, show a < 256 by omega, show b < 256 by omega]
    | [a, b, c, d], _, h3, h4, step =>
      have ha := h3 a (by simp)
      have hb := h3 b (by simp)
      have hc := h3 c (by simp)
      refine step [a, b, c] d a b c (2 ^ 8) [a, b, c, d] rfl rfl rfl rfl (by omega) (by omega) (by omega) (by have := h4 d (by simp); omega) (by simp [Inet.limit]) ?_ ?_
      · intro h
        simp
        rw [show d / 16777216 = 0 by omega, show d / 65536 % 256 = 0 by omega, show d / 256 % 256 = 0 by omega]
        simp
        try omega
      · simp [addressOf, show a < 256 by omega, show b < 256 by omega, show c < 256 by omega]
    | _ :: _ :: _ :: _ :: _ :: _, h2, _, _, _ => simp at h2
  constructor
  · intro h
    cases hp : Inet.parts 3 cs with
    | none => rw [Inet.aton, hp] at h; cases h
    | some vs =>
      have := (parts_sound 3 cs vs hp).1
      exact ⟨vs, this, (key vs this hp).mp h, rfl⟩
  · rintro ⟨vs, h1, h2, hp⟩
    exact (key vs h1 hp).mpr h2

theorem parts_address (cs : List Char) (vs bytes : List Nat) (h1 : HostNumbers cs vs) (h2 : addressOf vs = some bytes) :
    Inet.parts 3 cs = some vs := by
      match vs, h1, h2 with
      | [], h1, _ => cases h1
      | [d], h1, h2 =>
        simp only [addressOf] at h2
        split at h2
        · exact parts_complete cs _ h1 3 (by simp) (by simp) (by simp; omega)
        · cases h2
      | [a, d], h1, h2 =>
        simp only [addressOf] at h2
        split at h2
        · exact parts_complete cs _ h1 3 (by simp) (by simp; omega) (by simp; omega)
        · cases h2
      | [a, b, d], h1, h2 =>
        simp only [addressOf] at h2
        split at h2
        · exact parts_complete cs _ h1 3 (by simp) (by simp; omega) (by simp; omega)
        · cases h2
      | [a, b, c, d], h1, h2 =>
        simp only [addressOf] at h2
        split at h2
        · exact parts_complete cs _ h1 3 (by simp) (by simp; omega) (by simp; omega)
        · cases h2
      | _ :: _ :: _ :: _ :: _ :: _, _, h2 => simp [addressOf] at h2

/-! ## C110 -/

/-- The four numbers of the address to which an end point made of a text refers. -/
def addressed (host : String) (port : Int) : List Nat := (octets (EndPoint.ofHost Inet.host host port).addr.addr).map BitVec.toNat

theorem octets_ofNat (a b c d : Nat) (ha : a < 256) (hb : b < 256) (hc : c < 256) (hd : d < 256) :
    (octets (BitVec.ofNat 32 (a + 256 * (b + 256 * (c + 256 * d))))).map BitVec.toNat = [a, b, c, d] := by
  simp only [octets, List.map_cons, List.map_nil, List.cons.injEq, and_true, BitVec.toNat_setWidth, BitVec.toNat_ushiftRight,
    Nat.shiftRight_eq_div_pow, BitVec.toNat_ofNat]
  omega

theorem addressOf_octets (vs bytes : List Nat) (h : addressOf vs = some bytes) :
    ∃ a b c d, bytes = [a, b, c, d] ∧ a < 256 ∧ b < 256 ∧ c < 256 ∧ d < 256 := by
  unfold addressOf at h
  split at h
  all_goals first
    | cases h; done
    | (split at h
       · cases h
         exact ⟨_, _, _, _, rfl, by omega, by omega, by omega, by omega⟩
       · cases h)

/-- The address of a text is the one of its numbers, when there is one, and 0.0.0.0 otherwise. -/
theorem addressed_eq (host : String) (port : Int) :
    (∀ vs bytes, HostNumbers (cText host) vs → addressOf vs = some bytes → addressed host port = bytes) ∧
    ((¬ ∃ vs bytes, HostNumbers (cText host) vs ∧ addressOf vs = some bytes) → addressed host port = [0, 0, 0, 0]) := by
  have e : cText host = Inet.cstr host := rfl
  rw [e]
  constructor
  · intro vs bytes h ha
    obtain ⟨a, b, c, d, rfl, h1, h2, h3, h4⟩ := addressOf_octets vs bytes ha
    rw [← octets_ofNat a b c d h1 h2 h3 h4] at ha ⊢
    simp only [addressed, EndPoint.ofHost, Inet.host, (aton_iff _ _).mpr ⟨vs, h, ha, parts_address _ _ _ h ha⟩, Option.getD_some]
  · intro h
    cases hx : Inet.aton (Inet.cstr host) with
    | none => simp only [addressed, EndPoint.ofHost, Inet.host, hx, Option.getD_none]; rfl
    | some x =>
      obtain ⟨vs, h1, h2, -⟩ := (aton_iff _ x).mp hx
      exact absurd ⟨vs, _, h1, h2⟩ h

/-- C110: the address of an end point made of a text, for every text.  If the text is numbers separated by dots, the
address is the one of these numbers (and there is only one way to read them); otherwise the address is 0.0.0.0, and the
end point is made all the same. -/
theorem C110_hosts (host : String) (port : Int) :
    (∀ vs bytes, HostNumbers (cText host) vs → addressOf vs = some bytes → addressed host port = bytes) ∧
    ((¬ ∃ vs bytes, HostNumbers (cText host) vs ∧ addressOf vs = some bytes) → addressed host port = [0, 0, 0, 0]) ∧
    (EndPoint.ofHost Inet.host host port).host = host ∧ (EndPoint.ofHost Inet.host host port).port = port :=
  ⟨(addressed_eq host port).1, (addressed_eq host port).2, rfl, rfl⟩

theorem dec_number {n : Nat} (h : n < 256) : CNumber (toString n).toList n := by
  have key : ∀ n : Fin 256, n.val ≠ 0 → (toString n.val).toList ≠ [] ∧ (toString n.val).toList.head? ≠ some '0' ∧
      (∀ c ∈ (toString n.val).toList, (digitValue c).any (· < 10) = true) ∧ valueOf 10 (toString n.val).toList = n.val := by
    decide +kernel
  by_cases h0 : n = 0
  · subst h0
    exact CNumber.oct [] (by simp [DigitsOf])
  · obtain ⟨h1, h2, h3, h4⟩ := key ⟨n, h⟩ h0
    have := CNumber.dec _ h1 h2 (fun c hc => by
      have := h3 c hc
      cases hd : digitValue c with
      | none => rw [hd] at this; cases this
      | some d => rw [hd] at this; exact ⟨d, rfl, by simpa using this⟩)
    rwa [h4] at this

theorem number_no_nul {t : List Char} {v : Nat} (h : CNumber t v) : ∀ c ∈ t, c ≠ '\x00' := by
  have hd : ∀ b t, DigitsOf b t → ∀ c ∈ t, c ≠ '\x00' := by
    rintro b t h c hc rfl
    obtain ⟨d, h1, _⟩ := h _ hc
    revert h1
    simp [show digitValue '\x00' = none by decide]
  cases h with
  | dec _ _ _ h => exact hd _ _ h
  | oct t h =>
    intro c hc
    rcases List.mem_cons.mp hc with rfl | hc
    · decide
    · exact hd _ _ h c hc
  | hex x t hx _ h =>
    intro c hc
    rcases List.mem_cons.mp hc with rfl | hc
    · decide
    · rcases List.mem_cons.mp hc with rfl | hc
      · rcases hx with rfl | rfl <;> decide
      · exact hd _ _ h c hc

theorem takeWhile_number {t : List Char} {v : Nat} (h : CNumber t v) (rest : List Char) :
    (t ++ rest).takeWhile (· ≠ '\x00') = t ++ rest.takeWhile (· ≠ '\x00') := by
  rw [List.takeWhile_append_of_pos]
  intro c hc
  simpa using number_no_nul h c hc

/-- Four numbers and a tail. -/
theorem four_numbers {ta tb tc td : List Char} {a b c d : Nat} (ha : CNumber ta a) (hb : CNumber tb b) (hc : CNumber tc c)
    (hd : CNumber td d) (tail : List Char) (ht : ∀ c, tail.head? = some c → Space c) :
    HostNumbers ((ta ++ '.' :: (tb ++ '.' :: (tc ++ '.' :: (td ++ tail)))).takeWhile (· ≠ '\x00')) [a, b, c, d] := by
  have dot : ∀ l : List Char, ('.' :: l).takeWhile (· ≠ '\x00') = '.' :: l.takeWhile (· ≠ '\x00') := fun l => by
    rw [List.takeWhile_cons_of_pos (by decide)]
  rw [takeWhile_number ha, dot, takeWhile_number hb, dot, takeWhile_number hc, dot, takeWhile_number hd]
  refine .more _ _ _ _ ha (.more _ _ _ _ hb (.more _ _ _ _ hc (.last _ _ _ hd ?_)))
  intro x hx
  cases tail with
  | nil => cases hx
  | cons y tail =>
    have := ht y rfl
    rw [List.takeWhile_cons_of_pos (by
      simp only [Space, List.mem_cons, List.not_mem_nil, or_false] at this
      rcases this with rfl | rfl | rfl | rfl | rfl | rfl <;> decide)] at hx
    cases hx
    exact this

theorem dottedText_toList (a b c d : Nat) (tail : String) : (dottedText a b c d ++ tail).toList =
    (toString a).toList ++ '.' :: ((toString b).toList ++ '.' :: ((toString c).toList ++ '.' :: ((toString d).toList ++ tail.toList))) := by
  simp [dottedText, String.toList_append]

/-- C110: the usual text of an address gives that address, whatever follows it after white space. -/
theorem C110_dotted (a b c d : Nat) (ha : a < 256) (hb : b < 256) (hc : c < 256) (hd : d < 256) (tail : String) (port : Int)
    (ht : ∀ c, tail.toList.head? = some c → Space c) : addressed (dottedText a b c d ++ tail) port = [a, b, c, d] := by
  refine (addressed_eq _ port).1 [a, b, c, d] _ ?_ (by simp [addressOf, ha, hb, hc, hd])
  unfold cText
  rw [dottedText_toList]
  exact four_numbers (dec_number ha) (dec_number hb) (dec_number hc) (dec_number hd) _ ht

theorem inetNtoa_dotted (x : BitVec 32) : ∃ a b c d, a < 256 ∧ b < 256 ∧ c < 256 ∧ d < 256 ∧ inetNtoa x = dottedText a b c d ∧
    (octets x).map BitVec.toNat = [a, b, c, d] := by
  refine ⟨_, _, _, _, (x.setWidth 8).isLt, ((x >>> 8).setWidth 8).isLt, ((x >>> 16).setWidth 8).isLt, ((x >>> 24).setWidth 8).isLt, ?_, rfl⟩
  apply String.toList_injective
  simp [inetNtoa, octets, dottedText, String.toList_append]

/-- C110: the host of an end point made of an address (as those of discovered devices are) gives this address again, and
the port is kept. -/
theorem C110_round (sa : SockAddr) :
    let ep := EndPoint.ofSockAddr sa
    (EndPoint.ofHost Inet.host ep.host ep.port).addr.addr = sa.addr ∧ (EndPoint.ofHost Inet.host ep.host ep.port).addr.port = sa.port := by
  obtain ⟨a, b, c, d, ha, hb, hc, hd, h, ho⟩ := inetNtoa_dotted sa.addr
  refine ⟨?_, ?_⟩
  · apply octets_inj
    rw [ho]
    have := C110_dotted a b c d ha hb hc hd "" (EndPoint.ofSockAddr sa).port (by simp)
    simpa only [addressed, EndPoint.ofSockAddr, h, String.append_empty] using this
  · simp only [EndPoint.ofSockAddr, EndPoint.ofHost]
    rw [show BitVec.ofInt 16 ((htons sa.port).toNat : Int) = htons sa.port by simp, htons_htons]

/-- C110 violated: a text that does not begin with a digit, such as the name of a host, gives 0.0.0.0 without an error. -/
theorem C110_name_violated (host : String) (port : Int) (h : ∀ c, host.toList.head? = some c → c.isDigit = false) :
    addressed host port = [0, 0, 0, 0] := by
  refine (addressed_eq host port).2 ?_
  rintro ⟨vs, bytes, h1, _⟩
  have : ∃ c u, cText host = c :: u ∧ c.isDigit = true := by
    generalize cText host = l at h1 ⊢
    cases h1 with
    | last t v tail hn _ =>
      obtain ⟨c, u, rfl, hc⟩ := number_head t v hn
      exact ⟨c, _, rfl, hc⟩
    | more t v rest vs hn _ =>
      obtain ⟨c, u, rfl, hc⟩ := number_head t v hn
      exact ⟨c, _, rfl, hc⟩
  obtain ⟨c, u, h2, h3⟩ := this
  unfold cText at h2
  cases hl : host.toList with
  | nil => rw [hl] at h2; cases h2
  | cons x l =>
    rw [hl, List.takeWhile_cons] at h2
    split at h2
    · cases h2
      rw [h _ (by rw [hl]; rfl)] at h3
      cases h3
    · cases h2

/-- How a number with leading zeros is read. -/
theorem padded_read (x : Nat) (hx : x < 256) : ∃ c u, (padded x).toList = c :: u ∧ c.isDigit = true ∧
    ((x < 8 ∨ 100 ≤ x) → CNumber (c :: u) x) ∧
    (¬ (x < 8 ∨ 100 ≤ x) → ∀ rest, (rest = [] ∨ rest.head? = some '.') →
      ∃ v r, Inet.strtoul (c :: u ++ rest) = (v, r) ∧ ((r = rest ∧ v ≠ x) ∨ ∃ y r', r = y :: r' ∧ y.isDigit = true)) := by
  have key : ∀ n : Fin 100, ∃ p q, (padded n.val).toList = ['0', p, q] ∧ p ≠ 'x' ∧ p ≠ 'X' ∧ p.isDigit = true ∧ q.isDigit = true ∧
      digitValue p = some (n.val / 10) ∧ digitValue q = some (n.val % 10) := by
    have : ∀ n : Fin 100, (padded n.val).toList = ['0', (padded n.val).toList.getD 1 ' ', (padded n.val).toList.getD 2 ' '] ∧
        (padded n.val).toList.getD 1 ' ' ≠ 'x' ∧ (padded n.val).toList.getD 1 ' ' ≠ 'X' ∧
        ((padded n.val).toList.getD 1 ' ').isDigit = true ∧ ((padded n.val).toList.getD 2 ' ').isDigit = true ∧
        digitValue ((padded n.val).toList.getD 1 ' ') = some (n.val / 10) ∧
        digitValue ((padded n.val).toList.getD 2 ' ') = some (n.val % 10) := by
      decide +kernel
    exact fun n => ⟨_, _, this n⟩
  by_cases h100 : 100 ≤ x
  · have hn : (padded x).toList = (toString x).toList := by
      unfold padded; rw [if_neg (by omega), if_neg (by omega)]
    have hd := dec_number hx
    obtain ⟨c, u, e, hc⟩ := number_head _ _ hd
    exact ⟨c, u, by rw [hn, e], hc, fun _ => e ▸ hd, fun h => absurd (Or.inr h100) h⟩
  · obtain ⟨p, q, e, p1, p2, p3, q3, pv, qv⟩ := key ⟨x, by omega⟩
    dsimp only at pv qv e
    refine ⟨'0', [p, q], e, rfl, ?_, ?_⟩
    · intro hg
      have := CNumber.oct [p, q] (by
        intro c hc
        simp only [List.mem_cons, List.not_mem_nil, or_false] at hc
        rcases hc with rfl | rfl
        · exact ⟨_, pv, by omega⟩
        · exact ⟨_, qv, by omega⟩)
      rwa [show valueOf 8 [p, q] = x by simp [valueOf, pv, qv]; omega] at this
    · intro hg rest hr
      have hs : Inet.strtoul ('0' :: [p, q] ++ rest) = Inet.number 8 0 (p :: q :: rest) := by
        simp only [List.cons_append, List.nil_append]
        unfold Inet.strtoul
        split
        · simp_all
        · simp_all
        · simp_all
        · simp_all
      rw [hs]
      by_cases hp : x / 10 < 8
      · by_cases hq : x % 10 < 8
        · refine ⟨x / 10 * 8 + x % 10, rest, ?_, Or.inl ⟨rfl, by omega⟩⟩
          have := number_eq 8 0 [p, q] rest (by
            intro c hc
            simp only [List.mem_cons, List.not_mem_nil, or_false] at hc
            rcases hc with rfl | rfl
            · exact ⟨_, pv, hp⟩
            · exact ⟨_, qv, hq⟩) (by
            intro c hc d hd
            rcases hr with rfl | hr
            · cases hc
            · rw [hr] at hc; cases hc; rw [dot_stops.1] at hd; cases hd)
          simpa [pv, qv] using this
        · refine ⟨x / 10, q :: rest, ?_, Or.inr ⟨q, rest, rfl, q3⟩⟩
          simp [Inet.number, inet_digit, pv, qv, hp, hq]
      · refine ⟨0, p :: q :: rest, ?_, Or.inr ⟨p, _, rfl, p3⟩⟩
        simp [Inet.number, inet_digit, pv, hp]

/-- One number of a text with leading zeros. -/
theorem padded_part (k x : Nat) (hx : x < 256) (rest : List Char) (hr : rest = [] ∨ rest.head? = some '.') (vs : List Nat)
    (h : Inet.parts k ((padded x).toList ++ rest) = some vs) :
    ∃ w ws, vs = w :: ws ∧ (w = x → x < 8 ∨ 100 ≤ x) ∧ (∀ t, rest = '.' :: t → ∃ k', k = k' + 1 ∧ Inet.parts k' t = some ws) ∧
      (rest = [] → ws = []) := by
  obtain ⟨c, u, e, hc, h1, h2⟩ := padded_read x hx
  rw [e] at h
  have go : ∀ v, Inet.strtoul (c :: u ++ rest) = (v, rest) → (v = x → x < 8 ∨ 100 ≤ x) →
      ∃ w ws, vs = w :: ws ∧ (w = x → x < 8 ∨ 100 ≤ x) ∧ (∀ t, rest = '.' :: t → ∃ k', k = k' + 1 ∧ Inet.parts k' t = some ws) ∧
      (rest = [] → ws = []) := by
    intro v hv hg
    rw [List.cons_append] at h hv
    rw [parts_step k c _ v rest hc hv] at h
    split at h
    · cases h
    · rcases hr with rfl | hr
      · cases h
        exact ⟨v, [], rfl, hg, by simp, fun _ => rfl⟩
      · cases rest with
        | nil => cases hr
        | cons y t =>
          cases hr
          simp only [if_true] at h
          cases k with
          | zero => cases h
          | succ k =>
            dsimp only at h
            split at h
            · cases h
            · cases hp : Inet.parts k t with
              | none => rw [hp] at h; cases h
              | some ws =>
                rw [hp] at h
                cases h
                exact ⟨v, ws, rfl, hg, fun t' ht => ⟨k, rfl, by cases ht; exact hp⟩, by simp⟩
  by_cases hg : x < 8 ∨ 100 ≤ x
  · refine go x (strtoul_number _ _ _ (h1 hg) ?_) fun _ => hg
    intro y hy
    rcases hr with rfl | hr
    · cases hy
    · rw [hr] at hy; cases hy; exact dot_stops
  · obtain ⟨v, r, hs, hv | ⟨y, r', rfl, hy⟩⟩ := h2 hg rest hr
    · obtain ⟨rfl, hv⟩ := hv
      exact go v hs fun e => absurd e hv
    · exfalso
      rw [List.cons_append] at h hs
      rw [parts_step k c _ v _ hc hs] at h
      have hy1 : y ≠ '.' := by rintro rfl; cases hy
      have hy2 : Inet.isSpace y = false := by
        apply Bool.eq_false_iff.mpr
        intro hn
        have := (space_iff y).mp hn
        simp only [Space, List.mem_cons, List.not_mem_nil, or_false] at this
        rcases this with rfl | rfl | rfl | rfl | rfl | rfl <;> cases hy
      simp [hy1, hy2] at h

/-- C110 violated: a text with leading zeros gives the address that it shows only if each of its numbers is less than 8 or
has three digits without the zeros: the others are taken for octal, or the address is 0.0.0.0. -/
theorem C110_padded_violated (a b c d : Nat) (ha : a < 256) (hb : b < 256) (hc : c < 256) (hd : d < 256) (port : Int) :
    addressed (paddedText a b c d) port = [a, b, c, d] ↔ ∀ x ∈ [a, b, c, d], x < 8 ∨ 100 ≤ x := by
  have hl : (paddedText a b c d).toList = (padded a).toList ++ '.' :: ((padded b).toList ++ '.' :: ((padded c).toList ++
      '.' :: ((padded d).toList ++ []))) := by
    simp [paddedText, String.toList_append]
  have num : ∀ x, x < 256 → (x < 8 ∨ 100 ≤ x) → CNumber (padded x).toList x := by
    intro x hx hg
    obtain ⟨y, u, e, _, h1, _⟩ := padded_read x hx
    rw [e]; exact h1 hg
  constructor
  · intro h
    have nul : Inet.cstr (paddedText a b c d) = (paddedText a b c d).toList := by
      have pn : ∀ x, x < 256 → ∀ y ∈ (padded x).toList, y ≠ '\x00' := by
        have : ∀ n : Fin 256, ∀ y ∈ (padded n.val).toList, y ≠ '\x00' := by decide +kernel
        exact fun x hx => this ⟨x, hx⟩
      unfold Inet.cstr
      suffices h : ∀ y ∈ (paddedText a b c d).toList, decide (y ≠ '\x00') = true by
        have := List.takeWhile_append_of_pos (l₂ := []) h
        simpa only [List.append_nil, List.takeWhile_nil] using this
      intro y hy
      rw [hl] at hy
      simp only [List.mem_append, List.mem_cons, List.not_mem_nil, or_false] at hy
      have : y ≠ '\x00' := by
        rcases hy with hy | rfl | hy | rfl | hy | rfl | hy
        · exact pn a ha y hy
        · decide
        · exact pn b hb y hy
        · decide
        · exact pn c hc y hy
        · decide
        · exact pn d hd y hy
      simpa using this
    cases hx : Inet.aton (Inet.cstr (paddedText a b c d)) with
    | none =>
      have : addressed (paddedText a b c d) port = [0, 0, 0, 0] := by
        simp only [addressed, EndPoint.ofHost, Inet.host, hx, Option.getD_none]; rfl
      rw [this] at h
      cases h
      intro x hx
      simp at hx
      omega
    | some w =>
      have hw : (octets w).map BitVec.toNat = [a, b, c, d] := by
        simpa only [addressed, EndPoint.ofHost, Inet.host, hx, Option.getD_some] using h
      cases hp : Inet.parts 3 (Inet.cstr (paddedText a b c d)) with
      | none => rw [Inet.aton, hp] at hx; cases hx
      | some vs =>
        have hv : addressOf vs = some [a, b, c, d] := by
          obtain ⟨us, -, h2, h3⟩ := (aton_iff _ w).mp hx
          rw [hp] at h3
          cases h3
          rw [h2, hw]
        rw [nul, hl] at hp
        obtain ⟨w1, ws1, rfl, g1, n1, -⟩ := padded_part _ a ha _ (.inr rfl) vs hp
        obtain ⟨k1, -, hp⟩ := n1 _ rfl
        obtain ⟨w2, ws2, rfl, g2, n2, -⟩ := padded_part _ b hb _ (.inr rfl) ws1 hp
        obtain ⟨k2, -, hp⟩ := n2 _ rfl
        obtain ⟨w3, ws3, rfl, g3, n3, -⟩ := padded_part _ c hc _ (.inr rfl) ws2 hp
        obtain ⟨k3, -, hp⟩ := n3 _ rfl
        obtain ⟨w4, ws4, rfl, g4, -, n4⟩ := padded_part _ d hd _ (.inl rfl) ws3 hp
        rw [n4 rfl] at hv
        simp only [addressOf] at hv
        split at hv
        · cases hv
          intro x hx
          simp only [List.mem_cons, List.not_mem_nil, or_false] at hx
          rcases hx with rfl | rfl | rfl | rfl
          · exact g1 rfl
          · exact g2 rfl
          · exact g3 rfl
          · exact g4 rfl
        · cases hv
  · intro h
    refine (addressed_eq _ port).1 [a, b, c, d] _ ?_ (by simp [addressOf, ha, hb, hc, hd])
    unfold cText
    rw [hl]
    exact four_numbers (num a ha (h a (by simp))) (num b hb (h b (by simp))) (num c hc (h c (by simp))) (num d hd (h d (by simp)))
      [] (by simp)

/-! ## Cases -/

/-- The hypotheses of `C110_hosts`: numbers in decimal, octal and hexadecimal, fewer than four, and a tail. -/
example : HostNumbers (cText "10.0x1.017 x") [10, 1, 15] ∧ addressOf [10, 1, 15] = some [10, 1, 0, 15] := by
  refine ⟨?_, by decide⟩
  refine .more ['1', '0'] 10 _ _ (dec_number (n := 10) (by decide)) (.more ['0', 'x', '1'] 1 _ _ ?_ (.last ['0', '1', '7'] 15 [' ', 'x'] ?_ ?_))
  · refine .hex 'x' ['1'] (.inl rfl) (by simp) ?_
    intro c hc
    simp at hc
    exact ⟨1, by rw [hc]; decide, by decide⟩
  · refine .oct ['1', '7'] ?_
    intro c hc
    simp at hc
    rcases hc with rfl | rfl
    · exact ⟨1, by decide, by decide⟩
    · exact ⟨7, by decide, by decide⟩
  · simp [Space]

example : addressed "10.0x1.017 x" 44818 = [10, 1, 0, 15] := by decide +kernel
example : addressed "192.168.0.10" 44818 = [192, 168, 0, 10] := by decide +kernel
example : addressed "192.168.001.010" 44818 = [192, 168, 1, 8] := by decide +kernel
example : addressed "192.168.001.018" 44818 = [0, 0, 0, 0] := by decide +kernel
example : addressed "10.1" 44818 = [10, 0, 0, 1] := by decide +kernel
example : addressed "10.1.2.3.4" 44818 = [0, 0, 0, 0] := by decide +kernel
example : addressed "10.0.0.256" 44818 = [0, 0, 0, 0] := by decide +kernel
example : addressed "localhost" 44818 = [0, 0, 0, 0] ∧ ∀ c, "localhost".toList.head? = some c → c.isDigit = false :=
  ⟨by decide +kernel, by simp⟩
example : paddedText 192 168 1 10 = "192.168.001.010" := by decide +kernel
example : inetNtoa 0x0A00A8C0#32 = "192.168.0.10" := by decide +kernel

end Verif.Props
