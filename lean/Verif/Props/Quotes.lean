import Verif.Lemmas.Quotes
import Verif.Model.Quotes
import Verif.Spec.Quotes
import Verif.Props.Web
import Verif.Props.Rates
import Verif.Props.Caches
import Verif.Concrete.Server
/-
C72: exchange rates are what the services say. C73: fees are what the server recommends.
-/
namespace Bit
open Bit.Spec (At name Gives Answers Number JsonNumber Fits Denotes trunc value BitpayPrice BlockchainWorth FeeServer
  FeeCall digitsValue plainValue)
open Bit.Concrete (jobj at_head at_tail)

/-! ## C72 -/

theorem json_number {j : Json} {q : ℚ} (h : JsonNumber j q) :
    ∃ s d, j.numberText = .ok s ∧ Dec.parse s = .ok d ∧ value d = q := by
  rcases h with ⟨n, rfl, rfl⟩ | ⟨f, rfl, h⟩ | ⟨s, rfl, h⟩
  · obtain ⟨d, h1, h2⟩ := parse_number (.inl (denotes_intText n))
    exact ⟨_, d, rfl, h1, h2⟩
  · obtain ⟨d, h1, h2⟩ := parse_number h
    exact ⟨_, d, rfl, h1, h2⟩
  · obtain ⟨d, h1, h2⟩ := parse_number h
    exact ⟨_, d, rfl, h1, h2⟩

/-- C72. Bitpay: the number of satoshi for one unit of the currency is that of the price, rounded down. The price may
have as many decimal places as the precision allows (19 at the default precision of 28). -/
theorem C72_bitpay {prec : Nat} (hp : 9 ≤ prec) {up : Bool} {web : Web} {currency : Str} {price : ℚ} (hpos : 0 < price)
    (hplaces : ∃ k : Nat, price = k / 10 ^ (prec - 9)) (h : BitpayPrice up web currency price) :
    Gives up (bitpayRate prec web currency) (· = ⌊(10 : ℚ) ^ 8 / price⌋) := by
  unfold bitpayRate
  rcases h with ⟨text, j, hr, v, hv, hn⟩ | ⟨hu, ⟨e, hr⟩ | ⟨reply, hr, hs⟩⟩
  · left
    obtain ⟨s, b, h1, h2, h3⟩ := json_number hn
    obtain ⟨k, hk⟩ := hplaces
    have hk0 : 0 < k := by
      rcases Nat.eq_zero_or_pos k with rfl | h
      · rw [hk] at hpos; simp at hpos
      · exact h
    obtain ⟨d, h4, h5⟩ := reciprocal_floor prec hp b k hk0 (by rw [h3, hk])
    refine ⟨_, ?_, rfl⟩
    rw [hr, ok_bind]
    show (j.path ["data".toList, "rate".toList] >>= _) = _
    rw [show j.path ["data".toList, "rate".toList] = _ from hv.path, ok_bind, h1, ok_bind, h2, ok_bind, h4, ok_bind, h5, h3]
  · rw [hr]
    exact .inr ⟨hu, e, rfl⟩
  · rw [hr, ok_bind]
    rcases hs with hs | ⟨hs, e, he⟩
    · unfold raiseForStatus
      unfold Spec.ErrorStatus at hs
      rw [if_pos hs]
      exact .inr ⟨hu, _, rfl⟩
    · unfold raiseForStatus
      rw [if_neg (by rw [hs]; decide), ok_bind, he]
      exact .inr ⟨hu, _, rfl⟩

/-- C72. Blockchain.info: the number of satoshi for one unit of the currency, rounded down. -/
theorem C72_blockchain {prec : Nat} (hp : 1 ≤ prec) {up : Bool} {web : Web} {currency : Str} {worth : ℚ} (hpos : 0 ≤ worth)
    (hfits : Fits prec (worth * 10 ^ 8)) (h : BlockchainWorth up web currency worth) :
    Gives up (blockchainRate prec web (currency.map Char.toUpper)) (· = ⌊worth * (10 : ℚ) ^ 8⌋) := by
  unfold blockchainRate
  rcases h with ⟨text, j, hr, hn⟩ | ⟨hu, ⟨e, hr⟩ | ⟨reply, hr, hs⟩⟩
  · left
    obtain ⟨d, h1, h2⟩ := parse_number hn
    rw [hr, ok_bind]
    refine ⟨_, ?_, rfl⟩
    show (Dec.parse text >>= _) = _
    rw [h1, ok_bind]
    congr 1
    rw [toInt_value, mul_exact hp, value_ofInt, h2]
    · unfold trunc
      push_cast
      rw [if_pos (by positivity)]
      norm_num
    · rw [value_ofInt, h2]
      exact_mod_cast hfits
  · rw [hr]
    exact .inr ⟨hu, e, rfl⟩
  · rw [hr, ok_bind]
    unfold raiseForStatus
    unfold Spec.ErrorStatus at hs
    rw [if_pos hs]
    exact .inr ⟨hu, _, rfl⟩

theorem rateCodes_lookup : ∀ currency ∈ Spec.currencies,
    rateCodes.lookup currency = some (currency, currency.map Char.toUpper) ∧
    (precisionOf currency).isSome ∧ unitRates.lookup currency = none := by decide +kernel

/-- C72. If the services tell the truth about a currency whenever they answer, the rate is that of the price of a
bitcoin at Bitpay, rounded down to whole satoshi; if Bitpay does not answer, it may be the one at Blockchain.info; or
the call raises. -/
theorem C72_rate {prec : Nat} (hp : 9 ≤ prec) {up : Bool} {web : Web} {currency : Str} (hc : currency ∈ Spec.currencies)
    {price worth : ℚ} (hpos : 0 < price) (hplaces : ∃ k : Nat, price = k / 10 ^ (prec - 9)) (hw : 0 ≤ worth)
    (hfits : Fits prec (worth * 10 ^ 8)) (h1 : BitpayPrice up web currency price)
    (h2 : BlockchainWorth false web currency worth) :
    Gives up (exchangeRate (rateAnswers prec web currency) currency) fun r =>
      r = ⌊(10 : ℚ) ^ 8 / price⌋ ∨ up = false ∧ r = ⌊worth * (10 : ℚ) ^ 8⌋ := by
  obtain ⟨e1, e2, e3⟩ := rateCodes_lookup currency hc
  unfold exchangeRate rateAnswers
  rw [Option.isSome_iff_exists] at e2
  obtain ⟨n, e2⟩ := e2
  rw [e2]
  dsimp only
  rw [e3, e1]
  dsimp only
  have g1 := C72_bitpay hp hpos hplaces h1
  have g2 := C72_blockchain (by omega) hw hfits h2
  cases up with
  | true =>
    rcases g1 with ⟨x, hx, hx'⟩ | ⟨h, -⟩
    · rw [hx]
      exact .inl ⟨x, rfl, .inl hx'⟩
    · cases h
  | false =>
    refine firstAnswer_up _ _ _ (g1.imp fun x hx => .inl hx) fun r hr => ?_
    rw [List.mem_singleton] at hr
    subst hr
    exact g2.imp fun x hx => .inr ⟨rfl, hx⟩

/-- C72. If Bitpay cannot be reached, or answers with a status of error, and Blockchain.info is up, the rate is the one
at Blockchain.info. -/
theorem C72_second {prec : Nat} (hp : 1 ≤ prec) {web : Web} {currency : Str} (hc : currency ∈ Spec.currencies) {worth : ℚ}
    (hw : 0 ≤ worth) (hfits : Fits prec (worth * 10 ^ 8))
    (h1 : (∃ e, web (.get ("https://bitpay.com/rates/BTC/".toList ++ currency) []) = .error e ∧ Spec.ConnectionFailure e) ∨
      ∃ reply, web (.get ("https://bitpay.com/rates/BTC/".toList ++ currency) []) = .ok reply ∧
        Spec.ErrorStatus reply.status)
    (h2 : BlockchainWorth true web currency worth) :
    exchangeRate (rateAnswers prec web currency) currency = .ok ⌊worth * (10 : ℚ) ^ 8⌋ := by
  obtain ⟨e1, e2, e3⟩ := rateCodes_lookup currency hc
  unfold exchangeRate rateAnswers
  rw [Option.isSome_iff_exists] at e2
  obtain ⟨n, e2⟩ := e2
  rw [e2]
  dsimp only
  rw [e3, e1]
  dsimp only
  have g1 : ∃ e, bitpayRate prec web currency = .error e ∧ ratesIgnored e = true := by
    unfold bitpayRate
    rcases h1 with ⟨e, hr, he⟩ | ⟨reply, hr, hs⟩
    · rw [hr]
      refine ⟨e, rfl, ?_⟩
      rcases he with rfl | rfl | rfl <;> rfl
    · rw [hr, ok_bind]
      unfold raiseForStatus
      unfold Spec.ErrorStatus at hs
      rw [if_pos hs]
      exact ⟨_, rfl, rfl⟩
  obtain ⟨e, g1, ge⟩ := g1
  rcases C72_blockchain hp hw hfits h2 with ⟨x, hx, rfl⟩ | ⟨h, -⟩
  · rw [g1, hx]
    unfold firstAnswer
    rw [if_pos ge]
    rfl
  · cases h

/-- C72. What an amount of a currency is in satoshi: `amount · 10^8 · worth` for what a unit is worth in bitcoin, up to
the rounding down of the rate, which takes less than one satoshi for each unit of the currency, and that of the result. -/
theorem C72_amount {prec : Nat} (hp : 9 ≤ prec) {up : Bool} {web : Web} {currency : Str} (hc : currency ∈ Spec.currencies)
    {price worth : ℚ} (hpos : 0 < price) (hplaces : ∃ k : Nat, price = k / 10 ^ (prec - 9)) (hw : 0 ≤ worth)
    (hfits : Fits prec (worth * 10 ^ 8)) (h1 : BitpayPrice up web currency price)
    (h2 : BlockchainWorth false web currency worth) (amount : Str) (a : ℚ) (ha : Number amount a) (ha0 : 0 ≤ a)
    (hfits1 : Fits prec (⌊(10 : ℚ) ^ 8 / price⌋ * a)) (hfits2 : Fits prec (⌊worth * (10 : ℚ) ^ 8⌋ * a)) :
    Gives up (currencyToSatoshi prec (rateAnswers prec web currency) amount currency) fun s =>
      ∃ w : ℚ, (w = 1 / price ∨ up = false ∧ w = worth) ∧ (s : ℚ) ≤ a * 10 ^ 8 * w ∧ a * 10 ^ 8 * w - a - 1 < s := by
  have key : ∀ w : ℚ, 0 ≤ w → ∀ r : Int, r = ⌊w * (10 : ℚ) ^ 8⌋ →
      (trunc ((r : ℚ) * a) : ℚ) ≤ a * 10 ^ 8 * w ∧ a * 10 ^ 8 * w - a - 1 < (trunc ((r : ℚ) * a) : ℚ) := by
    intro w hw0 r hr
    have hr0 : 0 ≤ r := by rw [hr]; exact Int.floor_nonneg.2 (by positivity)
    have hr0' : (0 : ℚ) ≤ r := by exact_mod_cast hr0
    have e1 : (r : ℚ) ≤ w * 10 ^ 8 := by rw [hr]; exact Int.floor_le _
    have e2 : w * 10 ^ 8 < (r : ℚ) + 1 := by rw [hr]; exact Int.lt_floor_add_one _
    unfold trunc
    rw [if_pos (by positivity)]
    have e3 := Int.floor_le ((r : ℚ) * a)
    have e4 := Int.lt_floor_add_one ((r : ℚ) * a)
    constructor
    · nlinarith
    · nlinarith
  rcases C72_rate hp hc hpos hplaces hw hfits h1 h2 with ⟨r, hr, h | ⟨hu, h⟩⟩ | ⟨hu, e, he⟩
  · refine .inl ⟨_, C57_to_satoshi prec (by omega) _ _ r hr amount a ha (by rw [h]; exact hfits1), 1 / price, .inl rfl, ?_⟩
    exact key _ (by positivity) r (by rw [h]; congr 1; ring)
  · refine .inl ⟨_, C57_to_satoshi prec (by omega) _ _ r hr amount a ha (by rw [h]; exact hfits2), worth, .inr ⟨hu, rfl⟩, ?_⟩
    exact key _ hw r h
  · refine .inr ⟨hu, e, ?_⟩
    unfold currencyToSatoshi
    rw [he]

/-- Limitation. Where a bitcoin costs more than a hundred million, the rate is zero: every amount is worth nothing, and
no balance can be shown. -/
theorem C72_weak_currency {prec : Nat} (hp : 9 ≤ prec) {web : Web} {currency : Str} (hc : currency ∈ Spec.currencies)
    {price worth : ℚ} (hpos : 10 ^ 8 < price) (hplaces : ∃ k : Nat, price = k / 10 ^ (prec - 9)) (hw : 0 ≤ worth)
    (hfits : Fits prec (worth * 10 ^ 8)) (h1 : BitpayPrice true web currency price)
    (h2 : BlockchainWorth false web currency worth) :
    (∀ amount a, Number amount a → currencyToSatoshi prec (rateAnswers prec web currency) amount currency = .ok 0) ∧
    ∀ num : Nat, 0 < num → ∃ e, satoshiToCurrency prec (rateAnswers prec web currency) num currency = .error e := by
  have hr : exchangeRate (rateAnswers prec web currency) currency = .ok 0 := by
    rcases C72_rate hp hc (by linarith [show (0 : ℚ) < 10 ^ 8 by norm_num]) hplaces hw hfits h1 h2 with
      ⟨r, hr, h | ⟨hu, h⟩⟩ | ⟨hu, e, he⟩
    · rw [hr, h]
      congr 1
      rw [Int.floor_eq_iff]
      have : 0 < price := by linarith [show (0 : ℚ) < 10 ^ 8 by norm_num]
      constructor
      · push_cast; positivity
      · push_cast; rw [zero_add, div_lt_one this]; exact hpos
    · cases hu
    · cases hu
  constructor
  · intro amount a ha
    rw [C57_to_satoshi prec (by omega) _ _ 0 hr amount a ha ⟨0, 0, by simp, by simp⟩]
    simp [trunc]
  · intro num hn
    unfold satoshiToCurrency
    rw [hr]
    obtain ⟨-, e2, -⟩ := rateCodes_lookup currency hc
    rw [Option.isSome_iff_exists] at e2
    obtain ⟨n, e2⟩ := e2
    rw [e2]
    dsimp only
    have : ∃ e, Dec.div prec (Dec.ofInt num) (Dec.ofInt 0) = .error e := by
      unfold Dec.div Dec.ofInt
      exact ⟨_, rfl⟩
    obtain ⟨e, he⟩ := this
    refine ⟨e, ?_⟩
    unfold formatAmount
    rw [he]

/-- A web in which Bitpay gives the price of a bitcoin, and Blockchain.info what a unit is worth. -/
def quotesWeb (bitpay : Py Reply) (worth : Str) : Web := fun request =>
  match request with
  | .get url _ => if url = "https://bitpay.com/rates/BTC/usd".toList then bitpay else .ok ⟨200, worth, .error .valueError⟩
  | _ => .error .requestsConnection

/-- The reply of Bitpay: a bitcoin costs 43211.57 dollars. -/
def bitpayReply : Reply :=
  ⟨200, [], .ok (jobj [("data", jobj [("code", .str "USD".toList),
    ("rate", .float ⟨⟨false, 4321157, -2⟩, "43211.57".toList⟩)])])⟩

theorem quotes_bitpay (bitpay : Py Reply) (worth : Str) :
    quotesWeb bitpay worth (.get ("https://bitpay.com/rates/BTC/".toList ++ "usd".toList) []) = bitpay := by
  unfold quotesWeb
  dsimp only
  rw [if_pos (by decide)]

theorem quote_price (worth : Str) : BitpayPrice true (quotesWeb (.ok bitpayReply) worth) "usd".toList (43211.57 : ℚ) := by
  refine .inl ⟨[], _, quotes_bitpay _ _, .float ⟨⟨false, 4321157, -2⟩, "43211.57".toList⟩, by follow,
    .inr (.inl ⟨_, rfl, .inl ?_⟩)⟩
  refine ⟨false, "43211".toList, "57".toList, ⟨by decide, by decide, by decide⟩, ?_⟩
  have h1 : digitsValue ("43211".toList ++ "57".toList) = 4321157 := by decide
  have h2 : "57".toList.length = 2 := by decide
  unfold plainValue
  rw [h1, h2]
  norm_num

theorem quote_worth (up : Bool) (bitpay : Py Reply) :
    BlockchainWorth up (quotesWeb bitpay "0.00002314".toList) "usd".toList (0.00002314 : ℚ) := by
  refine .inl ⟨"0.00002314".toList, .error .valueError, ?_, .inl ?_⟩
  · unfold quotesWeb
    dsimp only
    rw [if_neg (by decide)]
  refine ⟨false, "0".toList, "00002314".toList, ⟨by decide, by decide, by decide⟩, ?_⟩
  have h1 : digitsValue ("0".toList ++ "00002314".toList) = 2314 := by decide
  have h2 : "00002314".toList.length = 8 := by decide
  unfold plainValue
  rw [h1, h2]
  norm_num

/-- The hypotheses of `C72_rate` are met: a dollar is 2314 satoshi. -/
example : exchangeRate (rateAnswers 28 (quotesWeb (.ok bitpayReply) "0.00002314".toList) "usd".toList) "usd".toList =
    .ok 2314 := by
  rcases C72_rate (prec := 28) (by omega) (by decide) (price := 43211.57) (by norm_num)
    ⟨432115700000000000000000, by norm_num⟩ (worth := 0.00002314) (by norm_num) ⟨2314, 0, by norm_num, by norm_num⟩
    (quote_price _) (quote_worth false _) with ⟨r, hr, h | ⟨h, -⟩⟩ | ⟨h, -⟩
  · rw [hr, h]
    congr 1
    rw [Int.floor_eq_iff]
    norm_num
  · cases h
  · cases h

/-- Those of `C72_second` are met: Bitpay is overloaded. -/
example : exchangeRate (rateAnswers 28 (quotesWeb (.ok ⟨503, [], .error .valueError⟩) "0.00002314".toList) "usd".toList)
    "usd".toList = .ok 2314 := by
  rw [C72_second (prec := 28) (by omega) (by decide) (worth := 0.00002314) (by norm_num) ⟨2314, 0, by norm_num, by norm_num⟩
    (.inr ⟨_, quotes_bitpay _ _, by unfold Spec.ErrorStatus; decide⟩) (quote_worth true _)]
  congr 1
  rw [Int.floor_eq_iff]
  norm_num

/-- Limitation. A reply of Bitpay that is not JSON is an error for the caller, although Blockchain.info would answer. -/
theorem C72_not_json : exchangeRate (rateAnswers 28 (quotesWeb (.ok ⟨200, "<html>".toList, .error .valueError⟩)
    "0.00002314".toList) "usd".toList) "usd".toList = .error .valueError := by decide +kernel

/-! ## C73 -/

/-- C73. A request for a fee gives the fee that the server recommends; or it raises, unless the server is up. -/
theorem C73_request {up : Bool} {web : Web} {recommended : Bool → Int} (h : FeeServer up web recommended) (fast : Bool) :
    Gives up (feeAnswer web fast) (· = recommended fast) := by
  unfold feeAnswer
  rcases h with ⟨text, j, hr, h1, h2⟩ | ⟨hu, ⟨e, hr⟩ | ⟨reply, hr, hs⟩⟩
  · left
    rw [hr, ok_bind]
    refine ⟨_, ?_, rfl⟩
    show (j.get _ >>= _) = _
    cases fast with
    | true =>
      rw [if_pos rfl, show j.get "fastestFee".toList = _ from h1.get, ok_bind, asInt_int]
    | false =>
      rw [if_neg (by decide), show j.get "hourFee".toList = _ from h2.get, ok_bind, asInt_int]
  · rw [hr]
    exact .inr ⟨hu, e, rfl⟩
  · rw [hr, ok_bind]
    rcases hs with hs | ⟨hs, e, he⟩
    · unfold raiseForStatus
      unfold Spec.ErrorStatus at hs
      rw [if_pos hs]
      exact .inr ⟨hu, _, rfl⟩
    · unfold raiseForStatus
      rw [if_neg (by rw [hs]; decide), ok_bind, he]
      exact .inr ⟨hu, _, rfl⟩

theorem lastFee_call {fast : Bool} : ∀ {l : List (FeeCall × Bool)} {f t : Int}, Spec.lastFee fast l = some (f, t) →
    ∃ c b, (c, b) ∈ l ∧ c.fast = fast ∧ c.answer = .ok f ∧ c.now = t := by
  intro l
  induction l with
  | nil => intro f t h; cases h
  | cons x rest ih =>
    obtain ⟨c, b⟩ := x
    intro f t h
    unfold Spec.lastFee at h
    cases hl : Spec.lastFee fast rest with
    | some y =>
      rw [hl] at h
      have h : some y = some (f, t) := by
        revert h
        cases c.answer <;> exact id
      obtain ⟨c', b', h1, h2⟩ := ih (hl.trans h)
      exact ⟨c', b', List.mem_cons_of_mem _ h1, h2⟩
    | none =>
      rw [hl] at h
      cases ha : c.answer with
      | error e => rw [ha] at h; cases h
      | ok g =>
        rw [ha] at h
        dsimp only at h
        split at h
        · rename_i hc
          simp only [Option.some.injEq, Prod.mk.injEq] at h
          exact ⟨c, b, List.mem_cons_self, hc.1, by rw [ha, h.1], h.2⟩
        · cases h

theorem requests_calls (s : FeeCaches) (past : List FeeCall) {c : FeeCall} {b : Bool}
    (h : (c, b) ∈ requests (feeRun s past).1) : c ∈ past := by
  induction past generalizing s with
  | nil => cases h
  | cons d ds ih =>
    have hrun : feeRun s (d :: ds) =
        ((d, (feeStep s d).2) :: (feeRun (feeStep s d).1 ds).1, (feeRun (feeStep s d).1 ds).2) := rfl
    rw [hrun] at h
    unfold requests at h
    rw [List.map_cons] at h
    rcases List.mem_cons.1 h with h | h
    · simp only [Prod.mk.injEq] at h
      rw [h.1]
      exact List.mem_cons_self
    · exact List.mem_cons_of_mem _ (ih _ h)

/-- C73. After any history of calls, at any times and with any failures: a fee that a call gives is the default, or one
that the server recommended, for the speed asked for, at the time of a call so far. If the server is up now, it is one
that the server recommended at a time that the cache time allows, or the one it recommends now. -/
theorem C73_fee (start : Int) (recommended : Int → Bool → Int) (past : List FeeCall) (c : FeeCall) (up : Bool)
    (hpast : ∀ d ∈ past, ∃ web, d.answer = feeAnswer web d.fast ∧ FeeServer false web (recommended d.now))
    (hnow : ∃ web, c.answer = feeAnswer web c.fast ∧ FeeServer up web (recommended c.now)) :
    Gives up (feeStep (feeRun (feeStart start) past).2 c).2.2 fun fee =>
      (fee = recommended c.now c.fast) ∨
      (∃ d ∈ past, fee = recommended d.now c.fast ∧ (up = true → c.now - d.now ≤ c.limit)) ∨
      up = false ∧ fee = Spec.defaultFee c.fast := by
  obtain ⟨k1, k2, k3, k4, k5⟩ := C55_fee_cache start past c
  have hlast : ∀ f t, Spec.lastFee c.fast (requests (feeRun (feeStart start) past).1) = some (f, t) →
      ∃ d ∈ past, f = recommended d.now c.fast ∧ d.now = t := by
    intro f t h
    obtain ⟨d, b, h1, h2, h3, h4⟩ := lastFee_call h
    have hd := requests_calls _ _ h1
    obtain ⟨web, g1, g2⟩ := hpast d hd
    refine ⟨d, hd, ?_, h4⟩
    rcases C73_request g2 d.fast with ⟨x, hx, rfl⟩ | ⟨-, e, he⟩
    · rw [g1, hx] at h3
      simp only [Except.ok.injEq] at h3
      rw [← h3, h2]
    · rw [g1, he] at h3
      cases h3
  cases hreq : (feeStep (feeRun (feeStart start) past).2 c).2.1 with
  | false =>
    obtain ⟨f, t, h1, h2, h3⟩ := k1.1 hreq
    obtain ⟨d, hd, h4, h5⟩ := hlast f t h1
    exact .inl ⟨f, k2 hreq f t h1, .inr (.inl ⟨d, hd, h4, fun _ => by rw [h5]; exact h3⟩)⟩
  | true =>
    obtain ⟨web, g1, g2⟩ := hnow
    rcases C73_request g2 c.fast with ⟨x, hx, rfl⟩ | ⟨hu, e, he⟩
    · exact .inl ⟨_, k3 hreq _ (g1.trans hx), .inl rfl⟩
    · by_cases hf : Spec.ConnectionFailure e
      · obtain ⟨m1, m2⟩ := k4 hreq e (g1.trans he) hf
        cases hl : Spec.lastFee c.fast (requests (feeRun (feeStart start) past).1) with
        | none => exact .inl ⟨_, m2 hl, .inr (.inr ⟨hu, rfl⟩)⟩
        | some y =>
          obtain ⟨f, t⟩ := y
          obtain ⟨d, hd, h4, h5⟩ := hlast f t hl
          exact .inl ⟨f, m1 f t hl, .inr (.inl ⟨d, hd, h4, fun h => by rw [hu] at h; cases h⟩)⟩
      · exact .inr ⟨hu, e, k5 hreq e (g1.trans he) hf⟩

/-- A web in which the server for fees answers. -/
def feeWeb (reply : Py Reply) : Web := fun request =>
  match request with
  | .get url _ => if url = "https://mempool.space/api/v1/fees/recommended".toList then reply else .error .requestsConnection
  | _ => .error .requestsConnection

/-- The reply with the two fees. -/
def feeReply (fastest hour : Int) : Reply :=
  ⟨200, [], .ok (jobj [("fastestFee", .int fastest), ("halfHourFee", .int 11), ("hourFee", .int hour)])⟩

theorem feeWeb_asked (reply : Py Reply) :
    feeWeb reply (.get "https://mempool.space/api/v1/fees/recommended".toList []) = reply := by
  unfold feeWeb
  dsimp only
  rw [if_pos rfl]

theorem feeWeb_server (up : Bool) (recommended : Bool → Int) :
    FeeServer up (feeWeb (.ok (feeReply (recommended true) (recommended false)))) recommended :=
  .inl ⟨[], _, feeWeb_asked _, by follow, by follow⟩

/-- The hypotheses of `C73_fee` are met: two fees asked for ten seconds apart, where the recommended fees change all the
time. -/
example (start : Int) : let recommended := fun (t : Int) (fast : Bool) => if fast then 20 + t else 10 + t
    let call := fun t : Int => FeeCall.mk true t 600 (feeAnswer (feeWeb (.ok (feeReply (20 + t) (10 + t)))) true)
    Gives true (feeStep (feeRun (feeStart start) [call 5]).2 (call 15)).2.2 fun fee =>
      fee = recommended 15 true ∨ fee = recommended 5 true := by
  intro recommended call
  have h : ∀ t up, ∃ web, (call t).answer = feeAnswer web (call t).fast ∧ FeeServer up web (recommended (call t).now) :=
    fun t up => ⟨_, rfl, feeWeb_server up (recommended t)⟩
  refine (C73_fee start recommended [call 5] (call 15) true (fun d hd => ?_) (h 15 true)).imp fun fee hfee => ?_
  · rw [List.mem_singleton] at hd
    subst hd
    exact h 5 false
  · rcases hfee with hfee | ⟨d, hd, hfee, -⟩ | ⟨hu, -⟩
    · exact .inl hfee
    · rw [List.mem_singleton] at hd
      subst hd
      exact .inr hfee
    · cases hu

/-- Limitation. A reply in which the fee is missing is an error for the caller, even if an older fee is known; so is one
that is not JSON. Only failures of the connection are covered. -/
theorem C73_strange_reply (start : Int) (past : List FeeCall) (c : FeeCall) (text : Str) (j : Py Json)
    (hanswer : c.answer = feeAnswer (feeWeb (.ok ⟨200, text, j⟩)) c.fast)
    (hj : j = .error .valueError ∨ ∃ items, j = .ok (.obj items) ∧ ∀ k v, (k, v) ∈ items → k ≠ "fastestFee".toList ∧ k ≠ "hourFee".toList)
    (hasked : (feeStep (feeRun (feeStart start) past).2 c).2.1 = true) :
    ∃ e, (feeStep (feeRun (feeStart start) past).2 c).2.2 = .error e := by
  obtain ⟨-, -, -, -, k5⟩ := C55_fee_cache start past c
  have h : ∃ e, feeAnswer (feeWeb (.ok ⟨200, text, j⟩)) c.fast = .error e ∧ ¬ Spec.ConnectionFailure e := by
    unfold feeAnswer
    rw [feeWeb_asked, ok_bind]
    unfold raiseForStatus
    rw [if_neg (by dsimp only; omega), ok_bind]
    rcases hj with rfl | ⟨items, rfl, hitems⟩
    · exact ⟨_, rfl, by unfold Spec.ConnectionFailure; decide⟩
    · have hl : items.lookup (if c.fast then "fastestFee".toList else "hourFee".toList) = none := by
        rw [List.lookup_eq_none_iff]
        intro p hp
        have := hitems p.1 p.2 hp
        rw [bne_iff_ne]
        split
        · exact fun h => this.1 h.symm
        · exact fun h => this.2 h.symm
      refine ⟨.keyError, ?_, by unfold Spec.ConnectionFailure; decide⟩
      show (Json.get (.obj items) _ >>= _) = _
      unfold Json.get
      dsimp only
      rw [hl]
      rfl
  obtain ⟨e, h1, h2⟩ := h
  exact ⟨e, k5 hasked e (hanswer.trans h1) h2⟩

/-- C73, without the cache. While the server is up, `get_fee` gives the fee that it recommends now for the speed asked
for. -/
theorem C73_get_fee {web : Web} {recommended : Bool → Int} (h : FeeServer true web recommended) (fast : Bool) :
    getFee web fast = .ok (recommended fast) := by
  rcases h with ⟨text, j, hr, h1, h2⟩ | ⟨hu, -⟩
  · unfold getFee
    rw [hr, ok_bind]
    show (j.get _ >>= _) = _
    cases fast with
    | true => rw [if_pos rfl, show j.get "fastestFee".toList = _ from h1.get, ok_bind, asInt_int]
    | false => rw [if_neg (by decide), show j.get "hourFee".toList = _ from h2.get, ok_bind, asInt_int]
  · cases hu

example : getFee (feeWeb (.ok (feeReply 30 12))) false = .ok 12 :=
  C73_get_fee (feeWeb_server true fun fast => if fast then 30 else 12) false

/-- Limitation. `get_fee` does not look at the status of the reply: whatever number a reply with an error status
carries is given out as the fee. (`get_fee_cached` refuses such a reply.) -/
theorem C73_get_fee_ignores_status (web : Web) (status : Nat) (text : Str) (j : Json) (n : Int)
    (hr : web (.get "https://mempool.space/api/v1/fees/recommended".toList []) = .ok ⟨status, text, .ok j⟩)
    (hj : At j [name "fastestFee"] (.int n)) (hs : Spec.ErrorStatus status) :
    getFee web true = .ok n ∧ feeAnswer web true = .error .requestsHTTP := by
  constructor
  · unfold getFee
    rw [hr, ok_bind]
    show (j.get _ >>= _) = _
    rw [if_pos rfl, show j.get "fastestFee".toList = _ from hj.get, ok_bind, asInt_int]
  · unfold feeAnswer
    rw [hr, ok_bind]
    unfold raiseForStatus
    unfold Spec.ErrorStatus at hs
    rw [if_pos hs]
    rfl

end Bit
