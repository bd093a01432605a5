import Verif.Model.FloatText
import Verif.Spec.FloatText
import Verif.Lemmas.FloatRound
import Verif.Props.EdgeFile

namespace GraphMat

/-! ### Reading -/

theorem pow10_eq (e : Int) : pow10 e = (10 : Rat) ^ e := by
  unfold pow10
  split_ifs with h
  · obtain ⟨k, rfl⟩ := Int.eq_ofNat_of_zero_le h
    simp
  · obtain ⟨k, hk⟩ := Int.eq_ofNat_of_zero_le (show (0 : Int) ≤ -e by omega)
    have : e = -(k : Int) := by omega
    subst this
    simp

/-- Something that is not a digit follows. -/
def NoDigit (l : List Char) : Prop := l = [] ∨ ∃ c k, l = c :: k ∧ digitVal c = none

theorem AtEnd.noDigit {l : List Char} (h : AtEnd l) : NoDigit l := by
  rcases h with h | ⟨c, k, h, hc⟩
  · exact .inl h
  · exact .inr ⟨c, k, h, digitVal_white hc⟩

theorem scanDigits_stop {rest : List Char} (hr : NoDigit rest) : ∀ (ds : List Nat) (acc k : Nat), (∀ d, d ∈ ds → d < 10) →
    scanDigits (ds.map digitChar ++ rest) acc k
      = (ds.foldl (fun acc d => 10 * acc + d) acc, k + ds.length, rest) := by
  intro ds
  induction ds with
  | nil =>
    intro acc k _
    rcases hr with rfl | ⟨c, l, rfl, hc⟩
    · simp [scanDigits]
    · simp [scanDigits, hc]
  | cons d ds ih =>
    intro acc k h
    simp only [List.map_cons, List.cons_append, scanDigits, digitVal_digitChar (h d (by simp))]
    rw [ih _ _ (fun x hx => h x (by simp [hx]))]
    simp only [List.foldl_cons, List.length_cons]
    congr 2; omega

/-- What follows the digits of a number: an exponent or the end. -/
theorem scanExp_ok {ex rest : List Char} {e : Int} (hr : AtEnd rest)
    (h : e = 0 ∧ ex = [] ∨ ∃ t, IsNumeral e t ∧ (ex = 'e' :: t ∨ ex = 'E' :: t)) : scanExp (ex ++ rest) = some (e, rest) := by
  rcases h with ⟨rfl, rfl⟩ | ⟨t, ht, rfl | rfl⟩
  · rcases hr with rfl | ⟨c, k, rfl, hc⟩
    · rfl
    · rw [List.nil_append]
      unfold scanExp
      have : ∀ c ∈ whiteChars, ¬ (c = 'e' ∨ c = 'E') := by decide
      simp only []
      rw [if_neg (this c hc)]
  · rw [List.cons_append]
    unfold scanExp
    simp only []
    rw [if_pos (Or.inl trivial)]
    exact scanInt_ok hr ht
  · rw [List.cons_append]
    unfold scanExp
    simp only []
    rw [if_pos (Or.inr trivial)]
    exact scanInt_ok hr ht

theorem exp_noDigit {ex rest : List Char} {e : Int} (hr : AtEnd rest)
    (h : e = 0 ∧ ex = [] ∨ ∃ t, IsNumeral e t ∧ (ex = 'e' :: t ∨ ex = 'E' :: t)) :
    NoDigit (ex ++ rest) ∧ ∀ k, ex ++ rest ≠ '.' :: k := by
  rcases h with ⟨rfl, rfl⟩ | ⟨t, ht, rfl | rfl⟩
  · refine ⟨hr.noDigit, ?_⟩
    rcases hr with rfl | ⟨c, k, rfl, hc⟩
    · intro k h; cases h
    · intro k' h
      have := (List.cons.inj h).1
      subst this
      exact absurd hc (by decide)
  · exact ⟨.inr ⟨_, _, rfl, by decide⟩, fun k h => absurd (List.cons.inj h).1 (by decide)⟩
  · exact ⟨.inr ⟨_, _, rfl, by decide⟩, fun k h => absurd (List.cons.inj h).1 (by decide)⟩

theorem scanMant_ok {ds fs : List Nat} {pt tail : List Char} (hne : ds ++ fs ≠ []) (hd : ∀ d, d ∈ ds ++ fs → d < 10)
    (hp : fs = [] ∧ pt = [] ∨ pt = '.' :: fs.map digitChar) (ht : NoDigit tail) (ht' : ∀ k, tail ≠ '.' :: k) :
    scanMant (ds.map digitChar ++ (pt ++ tail)) = some ((digitsValue (ds ++ fs), fs.length), tail) := by
  have hds : ∀ d, d ∈ ds → d < 10 := fun d h => hd d (by simp [h])
  have hfs : ∀ d, d ∈ fs → d < 10 := fun d h => hd d (by simp [h])
  unfold scanMant
  rcases hp with ⟨rfl, rfl⟩ | rfl
  · rw [List.nil_append, scanDigits_stop ht _ _ _ hds]
    have h0 : ¬ (0 + ds.length = 0) := by simpa using hne
    rcases ht with rfl | ⟨c, k, rfl, _⟩
    · simp only []
      rw [if_neg h0]
      simp [digitsValue]
    · have hc : c ≠ '.' := fun h => ht' k (by rw [h])
      show (match c :: k with
        | '.' :: cs => _
        | r => _) = _
      split
      · rename_i h; exact absurd (List.cons.inj h).1 hc
      · simp only []
        rw [if_neg h0]
        simp [digitsValue]
  · rw [List.cons_append, scanDigits_stop (.inr ⟨'.', _, rfl, by decide⟩) _ _ _ hds]
    simp only []
    rw [scanDigits_stop ht _ _ _ hfs]
    simp only []
    rw [if_neg (by
      intro h
      apply hne
      have h1 : ds.length = 0 := by omega
      have h2 : fs.length = 0 := by omega
      rw [List.length_eq_zero_iff.1 h1, List.length_eq_zero_iff.1 h2]; rfl)]
    simp [digitsValue, List.foldl_append]

/-- What a decimal begins with. -/
theorem IsDecimal.head {x : Rat} {l : List Char} (h : IsDecimal x l) :
    ∃ c k, l = c :: k ∧ ((∃ d, d < 10 ∧ c = digitChar d) ∨ c = '.') := by
  obtain ⟨ds, fs, pt, ex, e, hne, hd, hp, he, rfl, rfl⟩ := h
  cases ds with
  | cons d ds => exact ⟨_, _, rfl, .inl ⟨d, hd d (by simp), rfl⟩⟩
  | nil =>
    rcases hp with ⟨rfl, rfl⟩ | rfl
    · exact absurd rfl hne
    · exact ⟨_, _, rfl, .inr rfl⟩

theorem head_facts {c : Char} (h : (∃ d, d < 10 ∧ c = digitChar d) ∨ c = '.') :
    c ≠ '-' ∧ c ≠ '+' ∧ c ∉ whiteChars ∧ c.toLower ≠ 'i' ∧ c.toLower ≠ 'n' := by
  rcases h with ⟨d, hd, rfl⟩ | rfl
  · have : ∀ d : Fin 10, digitChar d.1 ≠ '-' ∧ digitChar d.1 ≠ '+' ∧ digitChar d.1 ∉ whiteChars ∧
        (digitChar d.1).toLower ≠ 'i' ∧ (digitChar d.1).toLower ≠ 'n' := by decide
    exact this ⟨d, hd⟩
  · decide

/-- The number that is stored when the exact value is `x`. -/
def FNum.ofRound (neg : Bool) : Option Rat → FNum
  | some m => .fin neg m
  | none => .inf neg

theorem scanMag_ok (f : FloatFmt) (neg : Bool) {x : Rat} {l rest : List Char} (h : IsDecimal x l) (hr : AtEnd rest) :
    scanMag f neg (l ++ rest) = some (FNum.ofRound neg (f.round x), rest) := by
  have hh := h.head
  obtain ⟨ds, fs, pt, ex, e, hne, hd, hp, he, hl, hx⟩ := h
  obtain ⟨c, k, hc, hcf⟩ := hh
  obtain ⟨_, _, _, c1, c2⟩ := head_facts hcf
  have n1 : ((l ++ rest).take 3).map Char.toLower ≠ ['i', 'n', 'f'] := by
    rw [hc]; intro h; exact c1 (List.cons.inj h).1
  have n2 : ((l ++ rest).take 3).map Char.toLower ≠ ['n', 'a', 'n'] := by
    rw [hc]; intro h; exact c2 (List.cons.inj h).1
  unfold scanMag
  rw [if_neg n1, if_neg n2, hl, List.append_assoc, List.append_assoc,
    scanMant_ok hne hd hp (exp_noDigit hr he).1 (exp_noDigit hr he).2]
  simp only [Option.bind_eq_bind, Option.bind_some]
  rw [scanExp_ok hr he]
  simp only [Option.bind_some]
  rw [pow10_eq, ← hx]
  cases f.round x <;> rfl

/-- The texts from which a weight is read: decimals, rounded to the format, infinities and NaNs. -/
def FloatDenotes (f : FloatFmt) (v : FNum) (l : List Char) : Prop :=
  ∃ neg s body, IsSign neg s ∧ l = s ++ body ∧
    ((∃ x, IsDecimal x body ∧ v = FNum.ofRound neg (f.round x)) ∨ (body = ['i', 'n', 'f'] ∧ v = .inf neg) ∨
      (body = ['n', 'a', 'n'] ∧ v = .nan neg))

theorem scanFloat_sign (f : FloatFmt) {neg : Bool} {s l : List Char} (hs : IsSign neg s)
    (hl : ∃ c k, l = c :: k ∧ c ≠ '-' ∧ c ≠ '+') : scanFloat f (s ++ l) = scanMag f neg l := by
  obtain ⟨c, k, rfl, h1, h2⟩ := hl
  rcases hs with ⟨rfl, rfl⟩ | ⟨rfl, rfl | rfl⟩
  · rfl
  · rw [List.nil_append]
    unfold scanFloat
    split
    · rename_i heq; exact absurd (List.cons.inj heq).1 h1
    · rename_i heq; exact absurd (List.cons.inj heq).1 h2
    · rfl
  · rfl

theorem floatText_reads (f : FloatFmt) : (floatText f).Reads (FloatDenotes f) where
  solid := by
    rintro v l ⟨neg, s, body, hs, rfl, hb⟩
    have hbody : Solid body := by
      rcases hb with ⟨x, hx, _⟩ | ⟨rfl, _⟩ | ⟨rfl, _⟩
      · obtain ⟨c, k, rfl, hc⟩ := hx.head
        exact ⟨c, k, rfl, (head_facts hc).2.2.1⟩
      · exact ⟨_, _, rfl, by decide⟩
      · exact ⟨_, _, rfl, by decide⟩
    rcases hs with ⟨_, rfl⟩ | ⟨_, rfl | rfl⟩
    · exact ⟨_, _, rfl, by decide⟩
    · exact hbody
    · exact ⟨_, _, rfl, by decide⟩
  scan := by
    rintro v l rest ⟨neg, s, body, hs, rfl, hb⟩ hr
    show scanFloat f _ = _
    rw [List.append_assoc]
    rcases hb with ⟨x, hx, rfl⟩ | ⟨rfl, rfl⟩ | ⟨rfl, rfl⟩
    · rw [scanFloat_sign f hs (by
        obtain ⟨c, k, rfl, hc⟩ := hx.head
        exact ⟨c, k ++ rest, rfl, (head_facts hc).1, (head_facts hc).2.1⟩)]
      exact scanMag_ok f neg hx hr
    · refine (scanFloat_sign (l := 'i' :: (['n', 'f'] ++ rest)) f hs ⟨_, _, rfl, by decide, by decide⟩).trans ?_
      unfold scanMag
      rw [if_pos (by rfl)]
      rfl
    · refine (scanFloat_sign (l := 'n' :: (['a', 'n'] ++ rest)) f hs ⟨_, _, rfl, by decide, by decide⟩).trans ?_
      unfold scanMag
      rw [if_neg (by simp), if_pos (by rfl)]
      rfl

/-! ### Writing -/

theorem digitsValue_append (a b : List Nat) : digitsValue (a ++ b) = digitsValue a * 10 ^ b.length + digitsValue b := by
  unfold digitsValue
  rw [List.foldl_append]
  generalize a.foldl (fun acc d => 10 * acc + d) 0 = x
  have : ∀ (b : List Nat) (x y : Nat), b.foldl (fun acc d => 10 * acc + d) (x + y)
      = x * 10 ^ b.length + b.foldl (fun acc d => 10 * acc + d) y := by
    intro b
    induction b with
    | nil => intro x y; simp
    | cons d b ih =>
      intro x y
      simp only [List.foldl_cons, List.length_cons]
      rw [show 10 * (x + y) + d = 10 * x + (10 * y + d) by ring, ih]
      ring
  exact this b x 0

theorem printFrac_ok : ∀ (d k : Nat), k < 10 ^ d → ∃ fs : List Nat, fs.length = d ∧ (∀ x, x ∈ fs → x < 10) ∧
    printFrac d k = fs.map digitChar ∧ digitsValue fs = k := by
  intro d
  induction d with
  | zero =>
    intro k h
    exact ⟨[], rfl, by simp, rfl, by simp at h; simp [digitsValue, h]⟩
  | succ d ih =>
    intro k h
    obtain ⟨fs, h1, h2, h3, h4⟩ := ih (k / 10) (by rw [pow_succ] at h; omega)
    refine ⟨fs ++ [k % 10], by simp [h1], ?_, ?_, ?_⟩
    · intro x hx
      rcases List.mem_append.1 hx with hx | hx
      · exact h2 x hx
      · rw [List.mem_singleton] at hx; omega
    · unfold printFrac
      rw [h3, List.map_append]
      rfl
    · rw [digitsValue_append, h4]
      simp only [List.length_singleton, pow_one, digitsValue, List.foldl_cons, List.foldl_nil]
      omega

/-- The decimal that is printed. -/
def fixedVal (d : Nat) (m : Rat) : Rat := (roundEven (m * (10 : Rat) ^ d) : Rat) / (10 : Rat) ^ d

theorem roundEven_nonneg {q : Rat} (h : 0 ≤ q) : 0 ≤ roundEven q := by
  have := roundEven_mono h
  rwa [show (0 : Rat) = ((0 : Int) : Rat) by norm_num, roundEven_int] at this

theorem printFixed_decimal (d : Nat) {m : Rat} (hm : 0 ≤ m) : IsDecimal (fixedVal d m) (printFixed d m) := by
  have hk : 0 ≤ roundEven (m * (10 : Rat) ^ d) := roundEven_nonneg (by positivity)
  obtain ⟨k, hk'⟩ := Int.eq_ofNat_of_zero_le hk
  have hpos : 0 < 10 ^ d := Nat.pos_of_ne_zero (by positivity)
  obtain ⟨ds, a1, a2, a3, a4⟩ := printDigits_ok (k / 10 ^ d + 1) (k / 10 ^ d) (Nat.lt_succ_self _)
  obtain ⟨fs, b1, b2, b3, b4⟩ := printFrac_ok d (k % 10 ^ d) (Nat.mod_lt _ hpos)
  refine ⟨ds, fs, '.' :: fs.map digitChar, [], 0, by simp [a1], ?_, .inr rfl, .inl ⟨rfl, rfl⟩, ?_, ?_⟩
  · intro x hx
    rcases List.mem_append.1 hx with hx | hx
    · exact a2 x hx
    · exact b2 x hx
  · unfold printFixed
    have e : (roundEven (m * ((10 ^ d : Nat) : Rat))).toNat = k := by
      push_cast
      rw [hk']; simp
    simp only [e]
    rw [a3, b3, List.append_nil]
  · unfold fixedVal
    rw [hk', digitsValue_append, a4, b4, b1, Nat.div_add_mod', zero_sub, zpow_neg, zpow_natCast, div_eq_mul_inv]
    push_cast
    rfl

/-- What comes back when a weight was printed with `d` decimals. -/
def FNum.back (f : FloatFmt) (d : Nat) : FNum → FNum
  | .fin neg m => FNum.ofRound neg (f.round (fixedVal d m))
  | v => v

/-- A magnitude is not negative. -/
def FNum.Wf : FNum → Prop
  | .fin _ m => 0 ≤ m
  | _ => True

theorem isSign_if (neg : Bool) : IsSign neg (if neg then ['-'] else []) := by
  cases neg
  · exact .inr ⟨rfl, .inl rfl⟩
  · exact .inl ⟨rfl, rfl⟩

theorem printFloat_denotes (f : FloatFmt) (d : Nat) {v : FNum} (hv : v.Wf) : FloatDenotes f (v.back f d) (printFloat d v) := by
  cases v with
  | fin neg m => exact ⟨neg, _, _, isSign_if neg, rfl, .inl ⟨_, printFixed_decimal d hv, rfl⟩⟩
  | inf neg => exact ⟨neg, _, _, isSign_if neg, rfl, .inr (.inl ⟨rfl, rfl⟩)⟩
  | nan neg => exact ⟨neg, _, _, isSign_if neg, rfl, .inr (.inr ⟨rfl, rfl⟩)⟩

/-! ### How near -/

theorem fixedVal_near (d : Nat) (m : Rat) : |fixedVal d m - m| ≤ 1 / 2 / (10 : Rat) ^ d := by
  have hpos : (0 : Rat) < (10 : Rat) ^ d := by positivity
  have h := roundEven_err (m * (10 : Rat) ^ d)
  have e : fixedVal d m - m = ((roundEven (m * (10 : Rat) ^ d) : Rat) - m * (10 : Rat) ^ d) / (10 : Rat) ^ d := by
    unfold fixedVal; field_simp
  rw [e, abs_div, abs_of_pos hpos]
  exact div_le_div_of_nonneg_right h hpos.le

theorem fixedVal_exact {d : Nat} {m : Rat} (h : ∃ k : Int, m * (10 : Rat) ^ d = k) : fixedVal d m = m := by
  obtain ⟨k, hk⟩ := h
  unfold fixedVal
  rw [hk, roundEven_int, ← hk, mul_div_assoc, div_self (by positivity), mul_one]

theorem fixedVal_nonneg (d : Nat) {m : Rat} (hm : 0 ≤ m) : 0 ≤ fixedVal d m := by
  unfold fixedVal
  have : (0 : Int) ≤ roundEven (m * (10 : Rat) ^ d) := roundEven_nonneg (by positivity)
  exact div_nonneg (by exact_mod_cast this) (by positivity)

/-- A number of at least `2^e` is a multiple of the distance there. -/
theorem float_multiple {p : Nat} {emin emax e : Int} {y : Rat} (h : IsFloat p emin emax y) (hy : (2 : Rat) ^ e ≤ |y|) :
    ∃ k : Int, y = k * (2 : Rat) ^ (e - ((p : Int) - 1)) := by
  obtain ⟨m, e', h1, h2, h3, rfl⟩ := h
  rcases Int.lt_or_le e' e with hlt | hle
  · exfalso
    rw [abs_mul, abs_of_pos (by positivity : (0 : Rat) < (2 : Rat) ^ (e' - ((p : Int) - 1)))] at hy
    have hm : |(m : Rat)| < (2 : Rat) ^ (p : Int) := by
      rw [zpow_natCast, ← Int.cast_abs]; exact_mod_cast h3
    have h4 := mul_lt_mul_of_pos_right hm (by positivity : (0 : Rat) < (2 : Rat) ^ (e' - ((p : Int) - 1)))
    rw [← zpow_add₀ (by norm_num : (2 : Rat) ≠ 0)] at h4
    have h5 : (2 : Rat) ^ ((p : Int) + (e' - ((p : Int) - 1))) ≤ (2 : Rat) ^ e :=
      zpow_le_zpow_right₀ (by norm_num) (by omega)
    linarith
  · refine ⟨m * 2 ^ (e' - e).toNat, ?_⟩
    push_cast
    rw [mul_assoc]
    congr 1
    rw [← zpow_natCast, ← zpow_add₀ (by norm_num : (2 : Rat) ≠ 0)]
    congr 1
    omega

/-- Two different numbers, one of them above `2^e`, are at least the distance there apart. -/
theorem float_apart {p : Nat} (hp : 1 ≤ p) {emin emax e : Int} {y z : Rat} (hy : IsFloat p emin emax y)
    (hz : IsFloat p emin emax z) (h : (2 : Rat) ^ e < y) (hne : z ≠ y) : (2 : Rat) ^ (e - ((p : Int) - 1)) ≤ |z - y| := by
  have hu : (0 : Rat) < (2 : Rat) ^ (e - ((p : Int) - 1)) := by positivity
  have h0 : (0 : Rat) < (2 : Rat) ^ e := by positivity
  obtain ⟨k, hk⟩ := float_multiple hy (by rw [abs_of_pos (by linarith)]; exact h.le)
  have h2e : (2 : Rat) ^ e = ((2 ^ (p - 1) : Int) : Rat) * (2 : Rat) ^ (e - ((p : Int) - 1)) := by
    push_cast
    rw [← zpow_natCast, ← zpow_add₀ (by norm_num : (2 : Rat) ≠ 0)]
    congr 1
    omega
  have apart : ∀ j : Int, j ≠ k → (2 : Rat) ^ (e - ((p : Int) - 1)) ≤ |(j : Rat) * (2 : Rat) ^ (e - ((p : Int) - 1)) - y| := by
    intro j hj
    rw [hk, ← sub_mul, abs_mul, abs_of_pos hu]
    have : (1 : Rat) ≤ |(j : Rat) - k| := by
      have : (1 : Int) ≤ |j - k| := Int.one_le_abs (sub_ne_zero.mpr hj)
      exact_mod_cast this
    nlinarith
  by_cases hz' : (2 : Rat) ^ e ≤ |z|
  · obtain ⟨j, hj⟩ := float_multiple hz hz'
    rw [hj]
    apply apart
    intro hjk
    apply hne
    rw [hj, hk, hjk]
  · have hzlt : z < (2 : Rat) ^ e := lt_of_le_of_lt (le_abs_self z) (not_le.mp hz')
    have := apart (2 ^ (p - 1)) (by
      intro hjk
      rw [hk, ← hjk, ← h2e] at h
      exact lt_irrefl _ h)
    rw [← h2e, abs_of_neg (by linarith)] at this
    rw [abs_of_neg (by linarith)]
    linarith

theorem float_le_max {p : Nat} {emin emax : Int} {y : Rat} (h : IsFloat p emin emax y) :
    y ≤ (2 : Rat) ^ (emax + 1) - (2 : Rat) ^ (emax - p + 1) := by
  obtain ⟨m, e, h1, h2, h3, rfl⟩ := h
  have hm : (m : Rat) ≤ (2 : Rat) ^ (p : Int) - 1 := by
    rw [zpow_natCast]
    have : m ≤ 2 ^ p - 1 := by have := le_abs_self m; omega
    exact_mod_cast this
  have h4 : (2 : Rat) ^ (e - ((p : Int) - 1)) ≤ (2 : Rat) ^ (emax - p + 1) := zpow_le_zpow_right₀ (by norm_num) (by omega)
  have hp1 : (1 : Rat) ≤ (2 : Rat) ^ (p : Int) := by
    rw [zpow_natCast]; exact one_le_pow₀ (by norm_num)
  calc (m : Rat) * (2 : Rat) ^ (e - ((p : Int) - 1)) ≤ ((2 : Rat) ^ (p : Int) - 1) * (2 : Rat) ^ (e - ((p : Int) - 1)) :=
        mul_le_mul_of_nonneg_right hm (by positivity)
    _ ≤ ((2 : Rat) ^ (p : Int) - 1) * (2 : Rat) ^ (emax - p + 1) := mul_le_mul_of_nonneg_left h4 (by linarith)
    _ = _ := by
      rw [sub_mul, one_mul, ← zpow_add₀ (by norm_num : (2 : Rat) ≠ 0)]
      congr 2
      omega

/-- No overflow when a number is printed and read back. -/
theorem back_finite (f : FloatFmt) (he : f.emin ≤ f.emax) (hpe : (f.prec : Int) < f.emax) (d : Nat) {m : Rat}
    (hm : 0 ≤ m) (hf : IsFloat f.prec f.emin f.emax m) : ∃ m', f.round (fixedVal d m) = some m' := by
  cases h : f.round (fixedVal d m) with
  | some m' => exact ⟨m', rfl⟩
  | none =>
    exfalso
    have h1 := f.round_over he h
    rw [abs_of_nonneg (fixedVal_nonneg d hm), pow2_eq, pow2_eq] at h1
    have h2 := float_le_max hf
    have h3 := (abs_le.mp (fixedVal_near d m)).2
    have h4 : (2 : Rat) ^ (f.emax - f.prec + 1) = 2 * (2 : Rat) ^ (f.emax - f.prec) := by
      rw [zpow_add_one₀ (by norm_num)]; ring
    have h5 : (2 : Rat) ^ (1 : Int) ≤ (2 : Rat) ^ (f.emax - f.prec) := zpow_le_zpow_right₀ (by norm_num) (by omega)
    have h6 : (1 : Rat) / 2 / (10 : Rat) ^ d ≤ 1 / 2 := div_le_self (by norm_num) (one_le_pow₀ (by norm_num))
    norm_num at h5
    linarith

theorem isFloat_zero {p : Nat} {emin emax : Int} (he : emin ≤ emax) : IsFloat p emin emax 0 :=
  ⟨0, emin, le_refl _, he, by simp, by simp⟩

theorem back_spec (f : FloatFmt) (hp : 2 ≤ f.prec) (he : f.emin ≤ f.emax) (d : Nat) {m m' : Rat} (hm : 0 ≤ m)
    (hf : IsFloat f.prec f.emin f.emax m) (h : f.round (fixedVal d m) = some m') :
    IsFloat f.prec f.emin f.emax m' ∧ 0 ≤ m' ∧ |m' - m| ≤ 1 / (10 : Rat) ^ d ∧
    ((∃ k : Int, m * (10 : Rat) ^ d = k) → m' = m) ∧
    (∀ e : Int, (2 : Rat) ^ e < m → 1 / (10 : Rat) ^ d < (2 : Rat) ^ (e - ((f.prec : Int) - 1)) → m' = m) ∧
    (m ≤ 1 / 2 / (10 : Rat) ^ d → m' = 0) := by
  obtain ⟨a1, a2⟩ := f.round_spec hp he h
  have hn := fixedVal_near d m
  have hb := (a2 m hf).1
  have hdist : |m' - m| ≤ 1 / (10 : Rat) ^ d := by
    have : |m' - m| ≤ |m' - fixedVal d m| + |fixedVal d m - m| := abs_sub_le _ _ _
    rw [abs_sub_comm m' (fixedVal d m)] at this
    have e : (1 : Rat) / (10 : Rat) ^ d = 1 / 2 / (10 : Rat) ^ d + 1 / 2 / (10 : Rat) ^ d := by ring
    linarith
  refine ⟨a1, ?_, hdist, ?_, ?_, ?_⟩
  · by_contra hc
    have h0 := (a2 0 (isFloat_zero he)).1
    have hx := fixedVal_nonneg d hm
    rw [sub_zero, abs_of_nonneg hx, abs_of_nonneg (by linarith)] at h0
    linarith
  · intro hk
    rw [fixedVal_exact hk, f.round_fix hp hf] at h
    exact (Option.some.inj h).symm
  · intro e h1 h2
    by_contra hne
    have := float_apart (by omega) hf a1 h1 hne
    linarith
  · intro hs
    have hx : fixedVal d m = 0 := by
      have hpos : (0 : Rat) < (10 : Rat) ^ d := by positivity
      have hle : m * (10 : Rat) ^ d ≤ 1 / 2 := by
        rw [div_div, le_div_iff₀ (by positivity)] at hs
        linarith
      have h2 : roundEven (m * (10 : Rat) ^ d) = 0 := by
        have h3 := roundEven_mono hle
        have h4 : roundEven (1 / 2) = 0 := by decide +kernel
        have h5 := roundEven_nonneg (show 0 ≤ m * (10 : Rat) ^ d by positivity)
        omega
      unfold fixedVal
      rw [h2]
      simp
    rw [hx, f.round_fix hp (isFloat_zero he)] at h
    exact (Option.some.inj h).symm

end GraphMat
