import Verif.Model.Rates
import Verif.Lemmas.Decimal
/-
C57: conversion of amounts between currencies and satoshi. C58: satoshi amounts written in a bitcoin
unit.
-/
namespace Bit
open Spec (value digitsValue Plain plainValue Denotes Number trunc Fits)

theorem timesAmount_exact (prec : Nat) (hp : 1 ≤ prec) (rate : Int) (amount : Str) (q : ℚ)
    (hq : Number amount q) (hfits : Fits prec (rate * q)) :
    timesAmount prec rate amount = .ok (trunc (rate * q)) := by
  obtain ⟨d, hd, rfl⟩ := parse_number hq
  unfold timesAmount
  rw [hd]
  dsimp only
  rw [toInt_value, mul_exact hp, value_ofInt]
  rw [value_ofInt]
  exact hfits

/-- C57. An amount written in decimal digits, perhaps with an exponent, is converted to the integer part of its product with the
rate, if that product has no more significant digits than the precision. -/
theorem C57_to_satoshi (prec : Nat) (hp : 1 ≤ prec) (answers : List (Py Int)) (currency : Str) (rate : Int)
    (hrate : exchangeRate answers currency = .ok rate) (amount : Str) (q : ℚ) (hq : Number amount q)
    (hfits : Fits prec (rate * q)) :
    currencyToSatoshi prec answers amount currency = .ok (trunc (rate * q)) := by
  unfold currencyToSatoshi
  rw [hrate]
  exact timesAmount_exact prec hp rate amount q hq hfits

theorem ofInt_natCast (n : Nat) : Dec.ofInt n = ⟨false, n, 0⟩ := by unfold Dec.ofInt; simp

theorem formatAmount_quantized {prec : Nat} (num rate : Int) (places F : Nat) (d : Dec)
    (hd : Dec.div prec (Dec.ofInt num) (Dec.ofInt rate) = .ok d)
    (hq : d.quantizeDown prec places = .ok { neg := false, coeff := F, exp := -(places : Int) })
    (hF : digits F ≤ prec) :
    ∃ text, formatAmount prec num rate places = .ok text ∧ Denotes text ((F : ℚ) / 10 ^ places) := by
  unfold formatAmount
  rw [hd]
  dsimp only
  rw [hq]
  refine ⟨_, rfl, ?_⟩
  have h := format_denotes ((Dec.mk false F (-(places : Int))).normalize prec)
  rw [normalize_value _ hF] at h
  have e : value (Dec.mk false F (-(places : Int))) = (F : ℚ) / 10 ^ places := by
    unfold value
    dsimp only
    rw [zpow_neg, zpow_natCast, div_eq_mul_inv]
    simp
  rwa [e] at h

theorem zero_quantized {prec : Nat} (hp : 1 ≤ prec) (rate places : Nat) (hr : 0 < rate) :
    ∃ d, Dec.div prec (Dec.ofInt (0 : Nat)) (Dec.ofInt rate) = .ok d ∧
      d.quantizeDown prec places = .ok ⟨false, 0, -(places : Int)⟩ := by
  refine ⟨⟨false, 0, 0⟩, ?_, ?_⟩
  · rw [ofInt_natCast, ofInt_natCast]
    unfold Dec.div
    dsimp only
    rw [if_neg (by omega), if_pos rfl]
    rfl
  · unfold Dec.quantizeDown
    have : digits 0 = 1 := by unfold digits; simp
    simp only [Nat.zero_mul, Nat.zero_div, ite_self, this]
    rw [if_neg (by omega)]

theorem formatAmount_floor (prec : Nat) (hp : 1 ≤ prec) (num rate places : Nat) (hr : 0 < rate)
    (hsmall : num * 10 ^ places < 10 ^ (prec - 1)) :
    ∃ text, formatAmount prec num rate places = .ok text ∧
      Denotes text (⌊(num : ℚ) / rate * 10 ^ places⌋ / 10 ^ places) := by
  have hfl : ⌊(num : ℚ) / rate * 10 ^ places⌋ = ((num * 10 ^ places / rate : Nat) : Int) := by
    have e : (num : ℚ) / rate * 10 ^ places = ((num * 10 ^ places : Nat) : ℚ) / (rate : Nat) := by
      push_cast
      ring
    rw [e, Rat.floor_natCast_div_natCast]
    rfl
  rw [hfl]
  have hle : digits (num * 10 ^ places / rate) ≤ prec := by
    rw [digits_le_iff _ _ hp]
    have := Nat.div_le_self (num * 10 ^ places) rate
    have : 10 ^ (prec - 1) ≤ 10 ^ prec := Nat.pow_le_pow_right (by norm_num) (by omega)
    omega
  have key : ∃ d, Dec.div prec (Dec.ofInt num) (Dec.ofInt rate) = .ok d ∧
      d.quantizeDown prec places = .ok ⟨false, num * 10 ^ places / rate, -(places : Int)⟩ := by
    rcases Nat.eq_zero_or_pos num with rfl | hn
    · rw [Nat.zero_mul, Nat.zero_div]
      exact zero_quantized hp rate places hr
    · exact div_quantize prec hp num rate places hn hr hsmall
  obtain ⟨d, h1, h2⟩ := key
  obtain ⟨text, ht, hd⟩ := formatAmount_quantized _ _ _ _ d h1 h2 hle
  exact ⟨text, ht, by rwa [Int.cast_natCast]⟩

theorem lookup_all {α β : Type} [BEq α] [LawfulBEq α] {f : α → Option β} : ∀ {l : List (α × β)},
    (∀ p ∈ l, f p.1 = some p.2) → (∀ a, (∀ p ∈ l, a ≠ p.1) → f a = none) → ∀ a, l.lookup a = f a
  | [], _, h2, a => by rw [h2 a (by simp)]; rfl
  | p :: l, h1, h2, a => by
    by_cases h : a = p.1
    · subst h
      rw [List.lookup_cons_self, h1 p List.mem_cons_self]
    · have : ∀ (l' : List (α × β)), (∀ p ∈ l', f p.1 = some p.2) → (∀ p ∈ l', a = p.1 → False) ∨
          (∃ b, l'.lookup a = some b ∧ f a = some b) := by
        intro l'
        induction l' with
        | nil => intro _; left; simp
        | cons q l' ih =>
          intro hq
          by_cases e : a = q.1
          · subst e
            exact Or.inr ⟨q.2, List.lookup_cons_self, hq q List.mem_cons_self⟩
          · rcases ih fun p hp => hq p (List.mem_cons_of_mem _ hp) with ih | ⟨b, h3, h4⟩
            · left
              intro p hp
              rcases List.mem_cons.mp hp with rfl | hp
              · exact e
              · exact ih p hp
            · refine Or.inr ⟨b, ?_, h4⟩
              rw [List.lookup_cons, beq_false_of_ne e]
              exact h3
      rcases this (p :: l) h1 with h3 | ⟨b, h3, h4⟩
      · rw [h2 a fun p hp e => h3 p hp e]
        rw [List.lookup_eq_none_iff]
        intro p hp
        simpa using fun e => h3 p hp e
      · rw [h3, h4]

/-- C57. The places of every currency are those of the table; every other name is refused. -/
theorem C57_places (currency : Str) : precisionOf currency = Spec.places currency := by
  unfold precisionOf
  refine lookup_all (by decide +kernel) ?_ currency
  intro a h
  have hmem : ∀ n, (currencyPrecision.lookup n).isSome → a ≠ n := by
    intro n hn
    obtain ⟨b, hb⟩ := Option.isSome_iff_exists.mp hn
    obtain ⟨l₁, l₂, e, -⟩ := List.lookup_eq_some_iff.mp hb
    exact h (n, b) (by rw [e]; simp)
  have all : ∀ l : List Str, (∀ n ∈ l, (currencyPrecision.lookup n).isSome) → a ∉ l :=
    fun l hl ha => hmem a (hl a ha) rfl
  unfold Spec.places
  rw [if_neg (all _ (by decide +kernel)), if_neg (all _ (by decide +kernel)), if_neg (hmem _ (by decide +kernel)),
    if_neg (hmem _ (by decide +kernel))]

/-- C57. An amount of satoshi is converted to a text that denotes the quotient by the rate, rounded down
to the places of the currency, if amount and places leave room within the precision. -/
theorem C57_to_currency (prec : Nat) (hp : 1 ≤ prec) (answers : List (Py Int)) (currency : Str)
    (rate places num : Nat) (hrate : exchangeRate answers currency = .ok (rate : Int)) (hr : 0 < rate)
    (hplaces : Spec.places currency = some places) (hsmall : num * 10 ^ places < 10 ^ (prec - 1)) :
    ∃ text, satoshiToCurrency prec answers num currency = .ok text ∧
      Denotes text (⌊(num : ℚ) / rate * 10 ^ places⌋ / 10 ^ places) := by
  rw [← C57_places] at hplaces
  unfold satoshiToCurrency
  rw [hrate, hplaces]
  exact formatAmount_floor prec hp num rate places hr hsmall

/-- The four bitcoin units: name, and how many places a satoshi is behind the point. -/
def bitcoinUnits : List (Str × Nat) :=
  [("satoshi".toList, 0), ("ubtc".toList, 2), ("mbtc".toList, 5), ("btc".toList, 8)]

theorem unit_rate (unit : Str) (k : Nat) (h : (unit, k) ∈ bitcoinUnits) (answers : List (Py Int)) :
    exchangeRate answers unit = .ok ((10 ^ k : Nat) : Int) ∧ precisionOf unit = some k := by
  unfold bitcoinUnits at h
  simp only [List.mem_cons, Prod.mk.injEq, List.not_mem_nil, or_false] at h
  rcases h with ⟨rfl, rfl⟩ | ⟨rfl, rfl⟩ | ⟨rfl, rfl⟩ | ⟨rfl, rfl⟩ <;> exact ⟨rfl, rfl⟩

/-- C58. An amount of satoshi of at most `prec` digits, written in any bitcoin unit, is the text of that
exact number of units, and converting it back gives the amount. -/
theorem C58_roundtrip (prec : Nat) (hp : 1 ≤ prec) (answers answers' : List (Py Int)) (unit : Str) (k num : Nat)
    (hu : (unit, k) ∈ bitcoinUnits) (hnum : num < 10 ^ prec) :
    ∃ text, satoshiToCurrency prec answers num unit = .ok text ∧ Denotes text ((num : ℚ) / 10 ^ k) ∧
      currencyToSatoshi prec answers' text unit = .ok num := by
  obtain ⟨hr, hpl⟩ := unit_rate unit k hu answers
  have key : ∃ text, formatAmount prec num (10 ^ k : Nat) k = .ok text ∧ Denotes text ((num : ℚ) / 10 ^ k) := by
    rcases Nat.eq_zero_or_pos num with rfl | hn
    · obtain ⟨d, h1, h2⟩ := zero_quantized hp (10 ^ k) k (by positivity)
      have : digits 0 = 1 := by unfold digits; simp
      exact formatAmount_quantized _ _ k 0 d h1 h2 (by omega)
    · obtain ⟨d, h1, h2, h3⟩ := div_pow prec hp num k hn hnum
      have hF : ⌊value d * 10 ^ k⌋ = (num : Int) := by
        rw [h3, div_mul_cancel₀ _ (by positivity)]
        exact Int.floor_natCast num
      have hdig := (digits_le_iff num prec hp).mpr hnum
      refine formatAmount_quantized _ _ k num d h1 ?_ hdig
      rw [quantize_coeff prec d k h2 num hF, if_neg (by omega)]
  obtain ⟨text, h1, h2⟩ := key
  refine ⟨text, ?_, h2, ?_⟩
  · unfold satoshiToCurrency
    rw [hr, hpl]
    exact h1
  · have e : (((10 ^ k : Nat) : Int) : ℚ) * ((num : ℚ) / 10 ^ k) = num := by
      push_cast
      rw [mul_div_cancel₀]
      positivity
    rw [C57_to_satoshi prec hp answers' unit _ (unit_rate unit k hu answers').1 text _ (.inl h2), e]
    · unfold trunc
      rw [if_pos (Nat.cast_nonneg _), Int.floor_natCast]
    · rw [e]
      exact ⟨num, 0, by simpa using hnum, by simp⟩

/-- C58. An amount with more digits than the precision cannot be written in any bitcoin unit: the call
raises `decimal.InvalidOperation`. -/
theorem C58_too_long (prec : Nat) (hp : 1 ≤ prec) (answers : List (Py Int)) (unit : Str) (k num : Nat)
    (hu : (unit, k) ∈ bitcoinUnits) (hnum : 10 ^ prec ≤ num) :
    satoshiToCurrency prec answers num unit = .error .invalidOperation := by
  obtain ⟨hr, hpl⟩ := unit_rate unit k hu answers
  obtain ⟨d, h1, h2⟩ := div_pow_large prec hp num k hnum
  unfold satoshiToCurrency formatAmount
  rw [hr, hpl]
  dsimp only
  rw [h1]
  dsimp only
  rw [h2]

/-- The cached formatting divides by the rate it serves, if that fits the precision. -/
theorem cached_formatting (prec : Nat) (hp : 1 ≤ prec) (limit now : Int) (answers : List (Py Int))
    (currency : Str) (caches : RateCaches) (rate : Int) (places num : Nat)
    (hplaces : precisionOf currency = some places)
    (hrate : (caches currency).hit now limit = some rate ∨
      (caches currency).hit now limit = none ∧ exchangeRate answers currency = .ok rate)
    (hfits : rate.natAbs < 10 ^ prec) :
    (satoshiToCurrencyCached prec limit now answers num currency caches).2.2 =
      formatAmount prec num rate places := by
  have h1 : timesAmount prec rate ['1'] = .ok rate := by
    have hd : Denotes ['1'] 1 :=
      ⟨false, ['1'], [], ⟨by decide, by simp, by simp⟩, by
        have : digitsValue (['1'] ++ []) = 1 := by decide
        unfold plainValue
        rw [this]
        norm_num⟩
    rw [timesAmount_exact prec hp rate ['1'] 1 (.inl hd) ⟨rate, 0, hfits, by simp⟩, mul_one]
    congr 1
    unfold trunc
    split
    · exact Int.floor_intCast rate
    · exact Int.ceil_intCast rate
  unfold satoshiToCurrencyCached currencyToSatoshiCached
  rw [hplaces]
  dsimp only
  rcases hrate with h | ⟨h, h'⟩
  · rw [h]
    dsimp only
    rw [h1]
  · rw [h, h']
    dsimp only
    rw [h1]

/-- C57. The cached conversion gives a text that denotes the quotient by the rate it serves, whether that
comes from the cache or from the services, rounded down to the places of the currency. -/
theorem C57_cached_to_currency (prec : Nat) (hp : 1 ≤ prec) (limit now : Int) (answers : List (Py Int))
    (currency : Str) (caches : RateCaches) (rate places num : Nat) (hr : 0 < rate)
    (hplaces : Spec.places currency = some places)
    (hrate : (caches currency).hit now limit = some (rate : Int) ∨
      (caches currency).hit now limit = none ∧ exchangeRate answers currency = .ok (rate : Int))
    (hfits : rate < 10 ^ prec) (hsmall : num * 10 ^ places < 10 ^ (prec - 1)) :
    ∃ text, (satoshiToCurrencyCached prec limit now answers num currency caches).2.2 = .ok text ∧
      Denotes text (⌊(num : ℚ) / rate * 10 ^ places⌋ / 10 ^ places) := by
  rw [← C57_places] at hplaces
  rw [cached_formatting prec hp limit now answers currency caches rate places num hplaces hrate (by simpa using hfits)]
  exact formatAmount_floor prec hp num rate places hr hsmall

example : Spec.places "krw".toList = some 0 ∧ Spec.places "usd".toList = some 2 ∧ Spec.places "xyz".toList = none := by
  decide +kernel

/-! ## Cases -/

/-- 12.345 dollars at 1500 satoshi a dollar: `C57_to_satoshi` applies. -/
example : Denotes "12.345".toList (12345 / 1000) ∧ Fits 28 ((1500 : Int) * (12345 / 1000 : ℚ)) ∧
    exchangeRate [.error .requestsTimeout, .ok 1500] "usd".toList = .ok 1500 ∧
    currencyToSatoshi 28 [.error .requestsTimeout, .ok 1500] "12.345".toList "usd".toList = .ok 18517 := by
  refine ⟨⟨false, "12".toList, "345".toList, ⟨by decide, by decide, by decide⟩, ?_⟩, ?_, by decide +kernel,
    by decide +kernel⟩
  · have : digitsValue ("12".toList ++ "345".toList) = 12345 := by decide
    have h2 : "345".toList.length = 3 := by decide
    unfold plainValue
    rw [this, h2]
    norm_num
  · exact ⟨185175, -1, by norm_num, by norm_num⟩

/-- 0.00001 bitcoin given as a float, which Python writes with an exponent: `C57_to_satoshi` applies. -/
example : Number "1e-05".toList (1 / 100000) ∧ Fits 28 ((10 ^ 8 : Int) * (1 / 100000 : ℚ)) ∧
    currencyToSatoshi 28 [] "1e-05".toList "btc".toList = .ok 1000 := by
  refine ⟨.inr ⟨['1'], "e-05".toList, 1, -5, rfl, ⟨false, ['1'], [], ⟨by decide, by decide, by decide⟩, ?_⟩,
    ⟨'e', ['-'], "05".toList, rfl, .inl rfl, by decide, by decide, .inl ⟨rfl, by decide⟩⟩, by norm_num⟩, ?_, by decide +kernel⟩
  · have : digitsValue (['1'] ++ []) = 1 := by decide
    unfold plainValue
    rw [this]
    norm_num
  · exact ⟨1000, 0, by norm_num, by norm_num⟩

/-- Three satoshi of a cent's worth: 1999 satoshi at 1500 a dollar are 1.33 dollars. -/
example : satoshiToCurrency 28 [.ok 1500] 1999 "usd".toList = .ok "1.33".toList := by decide +kernel

/-- The largest amount of bitcoin there is, in all units. -/
example : (bitcoinUnits.map fun u => satoshiToCurrency 28 [] 2099999997690000 u.1) =
    [.ok "2099999997690000".toList, .ok "20999999976900".toList, .ok "20999999976.9".toList,
      .ok "20999999.9769".toList] := by decide +kernel

/-- Limitation. A product with more digits than the precision is rounded half-even, so the result can be
above the integer part: 29 nines behind the point are converted to one satoshi at the default precision
28. -/
theorem C57_long_product :
    currencyToSatoshi 28 [] "0.99999999999999999999999999999".toList "satoshi".toList = .ok 1 ∧
    ∃ q : ℚ, Denotes "0.99999999999999999999999999999".toList q ∧ trunc ((1 : Int) * q) = 0 := by
  refine ⟨by decide +kernel, _, ⟨false, "0".toList, "99999999999999999999999999999".toList,
    ⟨by decide, by decide, by decide⟩, rfl⟩, ?_⟩
  have h1 : digitsValue ("0".toList ++ "99999999999999999999999999999".toList) = 99999999999999999999999999999 := by
    decide +kernel
  have h2 : "99999999999999999999999999999".toList.length = 29 := by decide +kernel
  unfold plainValue trunc
  rw [h1, h2]
  rw [if_pos (by norm_num)]
  rw [Int.floor_eq_iff]
  norm_num

/-- Limitation. At the precision 9 that a balance query to a node leaves behind (see
`RPCHost.get_balance`), the quotient is rounded before it is rounded down: 1500000014 satoshi at 1500 a
dollar are 1000000.0093 dollars but are shown as 1000000.01. -/
theorem C57_short_precision :
    satoshiToCurrency 9 [.ok 1500] 1500000014 "usd".toList = .ok "1000000.01".toList ∧
    ⌊((1500000014 : Nat) : ℚ) / (1500 : Nat) * 10 ^ 2⌋ = 100000000 := by
  refine ⟨by decide +kernel, ?_⟩
  rw [Int.floor_eq_iff]
  norm_num

/-- Ten bitcoin can be written at the default precision but not at precision 9. -/
example : satoshiToCurrency 28 [] 1000000000 "btc".toList = .ok "10".toList ∧
    satoshiToCurrency 9 [] 1000000000 "btc".toList = .error .invalidOperation ∧
    satoshiToCurrency 9 [] 999999999 "btc".toList = .ok "9.99999999".toList := by decide +kernel

end Bit
