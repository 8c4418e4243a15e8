import Verif.Base.Bytes

namespace Verif

@[simp] theorem beFix_length (w n : Nat) : (beFix w n).length = w := by
  induction w generalizing n with
  | zero => rfl
  | succ w ih => simp [beFix, ih]

@[simp] theorem zeros_length (n : Nat) : (zeros n).length = n := by simp [zeros]

theorem natOfBytes_nil : natOfBytes [] = 0 := rfl

theorem natOfBytes_append_single (a : Bytes) (x : Byte) :
    natOfBytes (a ++ [x]) = natOfBytes a * 256 + x.toNat := by
  simp [natOfBytes]

theorem foldl_be (a : Bytes) (k : Nat) :
    a.foldl (fun acc x => acc * 256 + x.toNat) k = k * 256 ^ a.length + natOfBytes a := by
  induction a generalizing k with
  | nil => simp [natOfBytes]
  | cons x a ih =>
    have h1 := ih (k * 256 + x.toNat)
    have h2 := ih (0 * 256 + x.toNat)
    simp only [natOfBytes, List.foldl_cons, List.length_cons] at *
    rw [h1, h2, Nat.pow_succ]
    simp [Nat.add_mul]
    rw [Nat.mul_assoc, Nat.mul_comm 256]
    omega

theorem natOfBytes_append (a b : Bytes) :
    natOfBytes (a ++ b) = natOfBytes a * 256 ^ b.length + natOfBytes b := by
  rw [natOfBytes, List.foldl_append, foldl_be]
  rfl

theorem natOfBytes_cons (x : Byte) (b : Bytes) :
    natOfBytes (x :: b) = x.toNat * 256 ^ b.length + natOfBytes b := by
  have := natOfBytes_append [x] b
  simpa [natOfBytes] using this

theorem natOfBytes_lt (a : Bytes) : natOfBytes a < 256 ^ a.length := by
  induction a with
  | nil => simp [natOfBytes]
  | cons x a ih =>
    rw [natOfBytes_cons, List.length_cons, Nat.pow_succ]
    have hx : x.toNat < 256 := x.isLt
    have : x.toNat * 256 ^ a.length + 256 ^ a.length ≤ 256 * 256 ^ a.length := by
      have : (x.toNat + 1) * 256 ^ a.length ≤ 256 * 256 ^ a.length := Nat.mul_le_mul_right _ hx
      rwa [Nat.add_mul, Nat.one_mul] at this
    rw [Nat.mul_comm (256 ^ a.length) 256]
    omega

@[simp] theorem natOfBytes_zeros (n : Nat) : natOfBytes (zeros n) = 0 := by
  induction n with
  | zero => rfl
  | succ n ih =>
    have : zeros (n+1) = 0 :: zeros n := rfl
    rw [this, natOfBytes_cons, ih]; simp

@[simp] theorem natOfBytes_zeros_append (n : Nat) (b : Bytes) :
    natOfBytes (zeros n ++ b) = natOfBytes b := by
  rw [natOfBytes_append]; simp

theorem natOfBytes_beFix (w n : Nat) : natOfBytes (beFix w n) = n % 256 ^ w := by
  induction w generalizing n with
  | zero => simp [beFix, natOfBytes, Nat.mod_one]
  | succ w ih =>
    rw [beFix, natOfBytes_append_single, ih, BitVec.toNat_ofNat]
    have : (2:Nat)^8 = 256 := rfl
    rw [this, Nat.pow_succ, Nat.mul_comm (256^w) 256, Nat.mod_mul]
    omega

theorem natOfBytes_beFix_of_lt {w n : Nat} (h : n < 256 ^ w) : natOfBytes (beFix w n) = n := by
  rw [natOfBytes_beFix, Nat.mod_eq_of_lt h]

theorem beFix_natOfBytes (b : Bytes) : beFix b.length (natOfBytes b) = b := by
  obtain ⟨n, hn⟩ : ∃ n, n = b.length := ⟨_, rfl⟩
  induction n generalizing b with
  | zero => have : b = [] := List.eq_nil_of_length_eq_zero hn.symm
            subst this; rfl
  | succ n ih =>
    have hne : b ≠ [] := by intro h; simp [h] at hn
    have hb : b = b.dropLast ++ [b.getLast hne] := (List.dropLast_concat_getLast hne).symm
    have hl : b.dropLast.length = n := by simp; omega
    rw [← hn, hb, natOfBytes_append_single, beFix]
    have hx : (b.getLast hne).toNat < 256 := (b.getLast hne).isLt
    have h1 : (natOfBytes b.dropLast * 256 + (b.getLast hne).toNat) / 256 = natOfBytes b.dropLast := by
      omega
    rw [h1]
    have h2 := ih b.dropLast hl.symm
    rw [hl] at h2
    rw [h2]
    congr 1
    congr 1
    apply BitVec.eq_of_toNat_eq
    rw [BitVec.toNat_ofNat]
    have : (2:Nat)^8 = 256 := rfl
    omega

theorem natOfBytes_inj {a b : Bytes} (hl : a.length = b.length) (h : natOfBytes a = natOfBytes b) :
    a = b := by
  rw [← beFix_natOfBytes a, ← beFix_natOfBytes b, hl, h]

theorem lt_pow_byteLen (n : Nat) : n < 256 ^ byteLen n := by
  unfold byteLen
  split
  · omega
  · have h256 : (256:Nat) = 2^8 := rfl
    rw [h256, ← Nat.pow_mul]
    have h1 : n < 2 ^ (n.log2 + 1) := Nat.lt_log2_self
    exact Nat.lt_of_lt_of_le h1 (Nat.pow_le_pow_right (by omega) (by omega))

theorem byteLen_le_iff {n w : Nat} : byteLen n ≤ w ↔ n < 256 ^ w := by
  constructor
  · intro h
    exact Nat.lt_of_lt_of_le (lt_pow_byteLen n) (Nat.pow_le_pow_right (by omega) h)
  · intro h
    unfold byteLen
    split
    · omega
    · rename_i hn
      have h256 : (256:Nat) = 2^8 := rfl
      rw [h256, ← Nat.pow_mul] at h
      have := (Nat.log2_lt hn).2 h
      omega

theorem byteLen_zero : byteLen 0 = 0 := rfl

theorem byteLen_pos {n : Nat} (h : n ≠ 0) : 0 < byteLen n := by
  unfold byteLen; simp [h]

@[simp] theorem bytesOfNat_length (n : Nat) : (bytesOfNat n).length = byteLen n := by
  simp [bytesOfNat]

@[simp] theorem natOfBytes_bytesOfNat (n : Nat) : natOfBytes (bytesOfNat n) = n :=
  natOfBytes_beFix_of_lt (lt_pow_byteLen n)

theorem bytesOfNat_inj {m n : Nat} (h : bytesOfNat m = bytesOfNat n) : m = n := by
  rw [← natOfBytes_bytesOfNat m, h, natOfBytes_bytesOfNat]

/-- Left-padding the minimal encoding with zeros is the fixed-width encoding. -/
theorem zeros_append_bytesOfNat {w n : Nat} (h : byteLen n ≤ w) :
    zeros (w - byteLen n) ++ bytesOfNat n = beFix w n := by
  apply natOfBytes_inj
  · simp; omega
  · rw [natOfBytes_zeros_append, natOfBytes_bytesOfNat, natOfBytes_beFix_of_lt (byteLen_le_iff.1 h)]

theorem beFix_inj {w m n : Nat} (hm : m < 256^w) (hn : n < 256^w) (h : beFix w m = beFix w n) :
    m = n := by
  rw [← natOfBytes_beFix_of_lt hm, h, natOfBytes_beFix_of_lt hn]

theorem beFix_succ_cons (w n : Nat) (h : n < 256^(w+1)) :
    beFix (w+1) n = BitVec.ofNat 8 (n / 256^w) :: beFix w (n % 256^w) := by
  apply natOfBytes_inj
  · simp
  · rw [natOfBytes_beFix_of_lt h, natOfBytes_cons, beFix_length, BitVec.toNat_ofNat,
      natOfBytes_beFix_of_lt (Nat.mod_lt _ (Nat.pow_pos (by omega)))]
    have : n / 256^w < 2^8 := by
      rw [Nat.div_lt_iff_lt_mul (Nat.pow_pos (by omega))]
      rw [Nat.pow_succ, Nat.mul_comm] at h
      simpa using h
    rw [Nat.mod_eq_of_lt this, Nat.mul_comm]
    exact (Nat.div_add_mod n (256^w)).symm

end Verif
