import Verif.Proofs.Base64
/-! C98: bytes in base 64. -/
namespace Hec
open _root_.Spec (IsBase64 numberIn digit InBase64)

theorem char_of_digit (c : UInt8) (h : IsBase64 c) : charOf (UInt8.ofNat (digit c)) = some c :=
  byte_all (P := fun c => IsBase64 c → charOf (UInt8.ofNat (digit c)) = some c) (by decide +kernel) c h

theorem digit_lt (c : UInt8) (h : IsBase64 c) : digit c < 64 := byte_all (P := fun c => IsBase64 c → digit c < 64) (by decide +kernel) c h

theorem digit_inj {c d : UInt8} (hc : IsBase64 c) (hd : IsBase64 d) (h : digit c = digit d) : c = d := by
  have h1 := char_of_digit c hc
  rw [h, char_of_digit d hd] at h1
  exact (Option.some.inj h1).symm

theorem pad_not : ¬ IsBase64 61 := by decide

/-- There is only one text for given bytes. -/
theorem one_text : ∀ {x e e' : Bytes}, InBase64 x e → InBase64 x e' → e = e' := by
  intro x e e' h
  induction h generalizing e' with
  | none => intro h'; cases h'; rfl
  | one a c d hk hn =>
    intro h'
    cases h' with
    | one _ c' d' hk' hn' =>
      simp only [numberIn, List.foldl_cons, List.foldl_nil] at hn hn'
      have b1 := digit_lt c (hk c (by simp)); have b2 := digit_lt d (hk d (by simp))
      have b3 := digit_lt c' (hk' c' (by simp)); have b4 := digit_lt d' (hk' d' (by simp))
      rw [digit_inj (hk c (by simp)) (hk' c' (by simp)) (by omega), digit_inj (hk d (by simp)) (hk' d' (by simp)) (by omega)]
  | two a b c d f hk hn =>
    intro h'
    cases h' with
    | two _ _ c' d' f' hk' hn' =>
      simp only [numberIn, List.foldl_cons, List.foldl_nil] at hn hn'
      have b1 := digit_lt c (hk c (by simp)); have b2 := digit_lt d (hk d (by simp)); have b5 := digit_lt f (hk f (by simp))
      have b3 := digit_lt c' (hk' c' (by simp)); have b4 := digit_lt d' (hk' d' (by simp)); have b6 := digit_lt f' (hk' f' (by simp))
      rw [digit_inj (hk c (by simp)) (hk' c' (by simp)) (by omega), digit_inj (hk d (by simp)) (hk' d' (by simp)) (by omega),
        digit_inj (hk f (by simp)) (hk' f' (by simp)) (by omega)]
  | three a b y c d f g rest t hk hn _ ih =>
    intro h'
    cases h' with
    | three _ _ _ c' d' f' g' _ t' hk' hn' ht' =>
      simp only [numberIn, List.foldl_cons, List.foldl_nil] at hn hn'
      have b1 := digit_lt c (hk c (by simp)); have b2 := digit_lt d (hk d (by simp)); have b5 := digit_lt f (hk f (by simp)); have b7 := digit_lt g (hk g (by simp))
      have b3 := digit_lt c' (hk' c' (by simp)); have b4 := digit_lt d' (hk' d' (by simp)); have b6 := digit_lt f' (hk' f' (by simp)); have b8 := digit_lt g' (hk' g' (by simp))
      rw [digit_inj (hk c (by simp)) (hk' c' (by simp)) (by omega), digit_inj (hk d (by simp)) (hk' d' (by simp)) (by omega),
        digit_inj (hk f (by simp)) (hk' f' (by simp)) (by omega), digit_inj (hk g (by simp)) (hk' g' (by simp)) (by omega), ih ht']

/-- **C98**: encoding any bytes gives exactly their text in base 64, with a zero after it.  (The
limit is the largest number for which the size of the text is an `int`.) -/
theorem C98_encode (x : Bytes) (_short : x.length ≤ 1610612733) : ∃ e, b64Encode x = some (e ++ [0]) ∧ InBase64 x e := by
  obtain ⟨o, ho, hs, hl, _⟩ := encode_spec x
  refine ⟨o, ?_, hs⟩
  have hlen : (b64EncodedLen x.length + 1).toNat = o.length + 1 := by
    unfold b64EncodedLen
    rw [hl]
    by_cases h0 : (x.length : Int) = 0
    · rw [if_pos h0]; omega
    · rw [if_neg h0, if_neg (by omega), Int.tdiv_eq_ediv_of_nonneg (by omega)]
      omega
  unfold b64Encode
  rw [ho]
  simp only [Option.bind_eq_bind, Option.bind_some]
  rw [hlen, if_pos (Nat.le_refl _)]
  simp

/-- **C98**: different bytes have different texts. -/
theorem C98_distinct (x y : Bytes) (h : b64Encode x = b64Encode y) (hx : x.length ≤ 1610612733) (hy : y.length ≤ 1610612733) : x = y := by
  obtain ⟨o, ho, hs, hl, hd⟩ := encode_spec x
  obtain ⟨o', ho', hs', hl', hd'⟩ := encode_spec y
  obtain ⟨e, he, hse⟩ := C98_encode x hx
  obtain ⟨e', he', hse'⟩ := C98_encode y hy
  rw [he, he'] at h
  have hee : e = e' := by simpa using h
  have h1 := one_text hs hse
  have h2 := one_text hs' hse'
  have hoo : o = o' := by rw [h1, h2, hee]
  subst hoo
  have hb := hd (x.length + y.length + o.length) [] 0 (by simp)
  have hb' := hd' (x.length + y.length + o.length) [] 0 (by simp)
  have := Option.some.inj (hb.symm.trans hb')
  injection this with _ hbuf hn
  have hll : x.length = y.length := by
    simp only [Nat.zero_add] at hn
    split at hn <;> split at hn <;> omega
  simp only [List.nil_append] at hbuf
  have := congrArg (List.take x.length) hbuf
  simpa [hll] using this

/-- **C98**: reading the text of four or more bytes gives those bytes, with only zeros after them;
the length given is larger than the number of bytes (and no larger than the memory). -/
theorem C98_back_partial (x e : Bytes) (h : InBase64 x e) (h4 : 4 ≤ x.length) (_short : x.length ≤ 1610612733) :
    ∃ d, b64Decode e = some d ∧ d.rc = 0 ∧ d.buf.length = e.length ∧ x.length < d.len ∧ d.len ≤ d.buf.length ∧
      d.buf = x ++ List.replicate (e.length - x.length) 0 := by
  obtain ⟨o, ho, hs, hl, hd⟩ := encode_spec x
  rw [one_text h hs]
  have hdl : b64DecodedLen o.length = ((x.length + 2) / 3 * 3 : Nat) := by
    unfold b64DecodedLen
    rw [if_neg (by omega), Int.tmod_eq_emod_of_nonneg (by omega), if_neg (by omega), Int.tdiv_eq_ediv_of_nonneg (by omega)]
    omega
  have hb := hd o.length [] 0 (by simp)
  refine ⟨⟨0, x ++ List.replicate (o.length - x.length) 0, x.length / 3 * 4 + if x.length % 3 = 0 then 0 else x.length % 3 + 1⟩, ?_, rfl, ?_, ?_, ?_, ?_⟩
  · unfold b64Decode
    simp only [hdl]
    rw [if_neg (show ¬ (((x.length + 2) / 3 * 3 : Nat) : Int) < 4 by omega), if_neg, hb]
    · simp
    · split
      · omega
      · split <;> omega
  · simp; omega
  · simp only; split <;> omega
  · simp only [List.length_append, List.length_replicate]; split <;> omega
  · rfl

/-- Not true in full: one to three bytes come back, but the text of fewer than four bytes is refused. -/
theorem C98_short_violation (x e : Bytes) (h : InBase64 x e) (h4 : x.length < 4) : (b64Decode e).map (·.rc) = some (-1) := by
  obtain ⟨o, ho, hs, hl, hd⟩ := encode_spec x
  rw [one_text h hs]
  have hdl : b64DecodedLen o.length < 4 := by
    unfold b64DecodedLen
    rw [if_neg (by omega), Int.tmod_eq_emod_of_nonneg (by omega), if_neg (by omega), Int.tdiv_eq_ediv_of_nonneg (by omega)]
    omega
  unfold b64Decode
  simp only
  rw [if_pos hdl, if_pos (by omega)]
  rfl

/-- Not true: that the length given is the number of bytes.  "hydrology" is 9 bytes and 12 is given. -/
theorem C98_length_violation : InBase64 [104, 121, 100, 114, 111, 108, 111, 103, 121] [97, 72, 108, 107, 99, 109, 57, 115, 98, 50, 100, 53] ∧
    (b64Decode [97, 72, 108, 107, 99, 109, 57, 115, 98, 50, 100, 53]).map (·.len) = some 12 := by
  refine ⟨?_, by decide +kernel⟩
  refine .three _ _ _ _ _ _ _ _ _ (by decide) (by decide) (.three _ _ _ _ _ _ _ _ _ (by decide) (by decide) (.three _ _ _ _ _ _ _ _ _ (by decide) (by decide) .none))

/-- Not true: that characters that are not base 64 are refused with -3: "AAAA**AA" is read. -/
theorem C98_characters_violation : ¬ IsBase64 42 ∧ (b64Decode [65, 65, 65, 65, 42, 42, 65, 65]).map (·.rc) = some 0 := by decide +kernel

/-- Not true: that a text whose length is no multiple of four is refused with -2: it is -1. -/
theorem C98_multiple_violation (t : Bytes) (h : t.length % 4 ≠ 0) : (b64Decode t).map (·.rc) = some (-1) := by
  have hdl : b64DecodedLen t.length = -2 := by
    unfold b64DecodedLen
    rw [if_neg (by omega), Int.tmod_eq_emod_of_nonneg (by omega), if_pos (by omega)]
  unfold b64Decode
  simp only [hdl]
  rw [if_pos (by omega), if_pos (by omega)]
  rfl

/-- The case of `C98_back_partial`: "Man!" -/
example : InBase64 [77, 97, 110, 33] [84, 87, 70, 117, 73, 81, 61, 61] :=
  .three _ _ _ _ _ _ _ _ _ (by decide) (by decide) (.one _ _ _ (by decide) (by decide))

end Hec
