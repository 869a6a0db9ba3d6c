import Verif.Model.Crypto

/-!
# C104: encrypted texts come back, and keyed hashes are HMAC
-/

namespace Bedrock.Crypto.Props
open Bedrock Bedrock.Crypto

/-- What is needed of the block cipher: blocks go to blocks, and decryption inverts encryption. -/
structure Sound (C : Cipher) : Prop where
  enc_len : ∀ k b, k.length = 32 → b.length = 16 → (C.enc k b).length = 16
  inverse : ∀ k b, k.length = 32 → b.length = 16 → C.dec k (C.enc k b) = b

theorem xor_len {a b : Bytes} (h : a.length = b.length) : (xor a b).length = a.length := by
  unfold xor
  rw [List.length_zipWith, h, Nat.min_self]

theorem xor_xor {a b : Bytes} (h : a.length = b.length) : xor (xor a b) b = a := by
  unfold xor
  induction a generalizing b with
  | nil => rfl
  | cons x a ih =>
    cases b with
    | nil => cases h
    | cons y b =>
      rw [List.zipWith_cons_cons, List.zipWith_cons_cons, ih (Nat.succ.inj h), UInt8.xor_assoc, UInt8.xor_self, UInt8.xor_zero]

theorem cbcEnc_len {C : Cipher} (hC : Sound C) {k : Bytes} (hk : k.length = 32) (n : Nat) (iv s : Bytes) (hiv : iv.length = 16)
    (hs : s.length = 16 * n) : (cbcEnc C k n iv s).length = 16 * n := by
  induction n generalizing iv s with
  | zero => rfl
  | succ n ih =>
    have ht : (s.take 16).length = 16 := by rw [List.length_take]; omega
    have he : (C.enc k (xor (s.take 16) iv)).length = 16 := hC.enc_len _ _ hk (by rw [xor_len (by rw [ht, hiv]), ht])
    unfold cbcEnc
    rw [List.length_append, he, ih _ _ he (by rw [List.length_drop]; omega)]
    omega

theorem cbc_inverse {C : Cipher} (hC : Sound C) {k : Bytes} (hk : k.length = 32) (n : Nat) (iv s : Bytes) (hiv : iv.length = 16)
    (hs : s.length = 16 * n) : cbcDec C k n iv (cbcEnc C k n iv s) = s := by
  induction n generalizing iv s with
  | zero =>
    unfold cbcDec
    exact (List.eq_nil_of_length_eq_zero hs).symm
  | succ n ih =>
    have ht : (s.take 16).length = 16 := by rw [List.length_take]; omega
    have hx : (xor (s.take 16) iv).length = 16 := by rw [xor_len (by rw [ht, hiv]), ht]
    have he : (C.enc k (xor (s.take 16) iv)).length = 16 := hC.enc_len _ _ hk hx
    unfold cbcEnc cbcDec
    rw [List.take_append_of_le_length (Nat.le_of_eq he.symm), List.take_of_length_le (Nat.le_of_eq he),
      List.drop_append_of_le_length (Nat.le_of_eq he.symm), List.drop_of_length_le (Nat.le_of_eq he), List.nil_append,
      hC.inverse _ _ hk hx, xor_xor (by rw [ht, hiv]), ih _ _ he (by rw [List.length_drop]; omega), List.take_append_drop]

theorem pad_eq (s : Bytes) : pad s = s ++ List.replicate ((16 - s.length % 16) % 16) 0 := by
  unfold pad
  have := Nat.mod_lt s.length (by decide : 0 < 16)
  split
  · rw [Nat.mod_eq_of_lt (a := 16 - s.length % 16) (by omega)]
  · rename_i h
    rw [Decidable.not_not.mp h]
    exact (List.append_nil s).symm

theorem pad_len (s : Bytes) : (pad s).length = 16 * ((s.length + 15) / 16) := by
  rw [pad_eq, List.length_append, List.length_replicate]
  omega

theorem encrypt_ok {C : Cipher} (s iv key : Bytes) (hiv : iv.length = 16) (hk : key.length = 32) :
    encrypt C s iv key = .ok (cbcEnc C key ((s.length + 15) / 16) iv (pad s)) := by
  unfold encrypt
  rw [if_neg (by omega), if_neg (by omega), List.take_append_of_le_length (by omega), List.take_of_length_le (by omega), pad_len,
    Nat.mul_div_cancel_left _ (by decide)]

/-- C104.  What was encrypted with a vector of 16 and a key of 32 bytes is decrypted with them, whatever it is: the text
and zeros up to a whole number of blocks. -/
theorem c104_decrypt_padded {C : Cipher} (hC : Sound C) (s iv key : Bytes) (hiv : iv.length = 16) (hk : key.length = 32) :
    ∃ e, encrypt C s iv key = .ok e ∧ e.length = 16 * ((s.length + 15) / 16) ∧
      decryptNoStripText C e e.length iv key = .ok (s ++ List.replicate (e.length - s.length) 0) := by
  have hl := cbcEnc_len hC hk ((s.length + 15) / 16) iv (pad s) hiv (pad_len s)
  refine ⟨_, encrypt_ok s iv key hiv hk, hl, ?_⟩
  unfold decryptNoStripText decryptNoStrip
  rw [if_neg (by omega), if_neg (by omega), if_neg (by omega), if_neg (by omega), hl, Nat.mul_div_cancel_left _ (by decide),
    cbc_inverse hC hk _ iv _ hiv (pad_len s), Nat.sub_self, List.replicate_zero, List.append_nil, pad_eq]
  congr 3
  omega

theorem takeWhile_pad (s : Bytes) (n : Nat) : (s ++ List.replicate n 0).takeWhile (· != 0) = s.takeWhile (· != 0) := by
  induction s with
  | nil => cases n <;> rfl
  | cons c s ih =>
    rw [List.cons_append, List.takeWhile_cons, List.takeWhile_cons, ih]

/-- C104.  `SAESDecrypt` gives back the text up to its first NUL. -/
theorem c104_decrypt {C : Cipher} (hC : Sound C) (s iv key : Bytes) (hiv : iv.length = 16) (hk : key.length = 32) :
    ∃ e, encrypt C s iv key = .ok e ∧ decrypt C e iv key = .ok (s.takeWhile (· != 0)) := by
  obtain ⟨e, he, _, hd⟩ := c104_decrypt_padded hC s iv key hiv hk
  refine ⟨e, he, ?_⟩
  unfold decryptNoStripText at hd
  rw [if_neg (by omega)] at hd
  unfold decrypt
  rw [if_neg (by omega), hd]
  dsimp only
  rw [takeWhile_pad]

/-- C104.  So a text without NUL comes back as it was. -/
theorem c104_roundtrip {C : Cipher} (hC : Sound C) (s iv key : Bytes) (hiv : iv.length = 16) (hk : key.length = 32) (h0 : 0 ∉ s) :
    ∃ e, encrypt C s iv key = .ok e ∧ decrypt C e iv key = .ok s := by
  obtain ⟨e, he, hd⟩ := c104_decrypt hC s iv key hiv hk
  refine ⟨e, he, hd.trans (congrArg Res.ok ?_)⟩
  have : ∀ l : Bytes, 0 ∉ l → l.takeWhile (· != 0) = l := by
    intro l hl
    induction l with
    | nil => rfl
    | cons c l ih =>
      have hc : c ≠ 0 := fun h => hl (h ▸ List.mem_cons_self)
      rw [List.takeWhile_cons_of_pos (by simpa using hc), ih fun h => hl (List.mem_cons_of_mem _ h)]
  exact this s h0

/-- C104.  Two texts without NUL that are encrypted alike are equal. -/
theorem c104_injective {C : Cipher} (hC : Sound C) (s s' iv key : Bytes) (hiv : iv.length = 16) (hk : key.length = 32)
    (h0 : 0 ∉ s) (h0' : 0 ∉ s') (h : encrypt C s iv key = encrypt C s' iv key) : s = s' := by
  obtain ⟨e, he, hd⟩ := c104_roundtrip hC s iv key hiv hk h0
  obtain ⟨e', he', hd'⟩ := c104_roundtrip hC s' iv key hiv hk h0'
  rw [he, he'] at h
  obtain rfl := Res.ok.inj h
  exact Res.ok.inj (hd.symm.trans hd')

/-- C104.  What is not a whole number of blocks decrypts to nothing; decryption never reads or writes past a buffer. -/
theorem c104_decrypt_total (C : Cipher) (s iv key : Bytes) (hiv : iv.length = 16) (hk : key.length = 32) :
    (∃ out, decrypt C s iv key = .ok out) ∧ (s.length % 16 ≠ 0 → decrypt C s iv key = .ok []) := by
  unfold decrypt decryptNoStrip
  rw [if_neg (by omega), if_neg (by omega)]
  by_cases h : s.length % 16 ≠ 0
  · rw [if_pos h]
    exact ⟨⟨_, rfl⟩, fun _ => rfl⟩
  · rw [if_neg h, if_neg (Nat.lt_irrefl _)]
    exact ⟨⟨_, rfl⟩, fun h' => absurd h' h⟩

/-! ## HMAC -/

/-- RFC 2104 for a key of at most one block of 64 bytes: zeros are appended to the key up to a block `K`; the value is
`H((K xor opad) ++ H((K xor ipad) ++ text))`. -/
def rfc2104 (H : Bytes → Bytes) (key text : Bytes) : Bytes :=
  let K := key ++ List.replicate (64 - key.length) 0
  H (K.map (· ^^^ 0x5c) ++ H (K.map (· ^^^ 0x36) ++ text))

theorem keyInto_replicate (x : UInt8) (key : Bytes) (n : Nat) (h : key.length ≤ n) :
    keyInto key (List.replicate n x) = some ((key ++ List.replicate (n - key.length) 0).map (· ^^^ x)) := by
  induction key generalizing n with
  | nil =>
    unfold keyInto
    rw [List.nil_append, List.map_replicate, UInt8.zero_xor]
    rfl
  | cons k key ih =>
    cases n with
    | zero => exact absurd h (Nat.not_succ_le_zero _)
    | succ n =>
      have h' : key.length ≤ n := Nat.le_of_succ_le_succ h
      rw [List.replicate_succ]
      unfold keyInto
      rw [ih n h', List.length_cons, Nat.succ_sub_succ, List.cons_append, List.map_cons, UInt8.xor_comm]
      rfl

/-- C104.  With a key of up to 64 bytes the keyed hash is HMAC, for every hash function. -/
theorem c104_hmac (H : Bytes → Bytes) (key msg : Bytes) (h : key.length ≤ 64) : hmac H key msg = .ok (rfc2104 H key msg) := by
  unfold hmac
  rw [keyInto_replicate _ key 64 h, keyInto_replicate _ key 64 h]
  rfl

theorem keyInto_long {key p : Bytes} (h : p.length < key.length) : keyInto key p = none := by
  induction key generalizing p with
  | nil => exact absurd h (Nat.not_lt_zero _)
  | cons k key ih =>
    cases p with
    | nil => rfl
    | cons q p =>
      unfold keyInto
      rw [ih (Nat.lt_of_succ_lt_succ h)]
      rfl

/-- C104.  What is missing: RFC 2104 hashes a longer key first; the code writes past its pads. -/
theorem c104_long_key (H : Bytes → Bytes) (key msg : Bytes) (h : 64 < key.length) : hmac H key msg = .ub := by
  unfold hmac
  rw [keyInto_long (by rw [List.length_replicate]; exact h)]

/-- C104.  What is missing: a short vector is not refused when encrypting, but read past its end. -/
theorem c104_short_vector (C : Cipher) (s iv key : Bytes) (hk : key.length = 32) (h : iv.length < 15) : encrypt C s iv key = .ub := by
  unfold encrypt
  rw [if_neg (by omega), if_pos h]

/-! ## Cases -/

/-- Not a cipher to use, but a sound one: the block reversed, combined with the key. -/
def toy : Cipher where
  enc k b := xor b.reverse (k.take 16)
  dec k b := (xor b (k.take 16)).reverse

theorem toy_sound : Sound toy where
  enc_len k b hk hb := by
    show (xor b.reverse (k.take 16)).length = 16
    rw [xor_len (by rw [List.length_reverse, hb, List.length_take]; omega), List.length_reverse, hb]
  inverse k b hk hb := by
    show (xor (xor b.reverse (k.take 16)) (k.take 16)).reverse = b
    rw [xor_xor (by rw [List.length_reverse, hb, List.length_take]; omega), List.reverse_reverse]

example : ∃ e, encrypt toy (List.replicate 21 65) (List.replicate 16 7) ((List.range 32).map UInt8.ofNat) = .ok e ∧ e.length = 32 ∧
    decrypt toy e (List.replicate 16 7) ((List.range 32).map UInt8.ofNat) = .ok (List.replicate 21 65) ∧
    decrypt toy (e.take 31) (List.replicate 16 7) ((List.range 32).map UInt8.ofNat) = .ok [] :=
  ⟨_, rfl, by decide +kernel, by decide +kernel, by decide +kernel⟩

/-- A text with a NUL is cut. -/
example : decrypt toy (match encrypt toy [65, 0, 66] (List.replicate 16 7) (List.replicate 32 1) with | .ok e => e | _ => [])
    (List.replicate 16 7) (List.replicate 32 1) = .ok [65] := by decide +kernel

example : hmac (fun s => [s.foldl (· + ·) 0]) [1, 2, 3] [9] = .ok (rfc2104 (fun s => [s.foldl (· + ·) 0]) [1, 2, 3] [9]) :=
  c104_hmac _ _ _ (by decide)

example : hmac (fun s => s.take 20) (List.replicate 65 1) [9] = .ub := c104_long_key _ _ _ (by decide)

end Bedrock.Crypto.Props
