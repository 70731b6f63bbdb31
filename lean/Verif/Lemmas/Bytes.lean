import Verif.Model.Bytes

namespace Kp

/-- The `width` bytes of a number, low byte first. -/
def Spec.leBytes : ℕ → ℕ → List Byte
  | 0, _ => []
  | w + 1, n => ⟨n % 256, Nat.mod_lt _ (by decide)⟩ :: Spec.leBytes w (n / 256)

@[simp] theorem Spec.leBytes_length : ∀ w n, (Spec.leBytes w n).length = w
  | 0, _ => rfl
  | w + 1, n => by simp [Spec.leBytes, Spec.leBytes_length w]

theorem leNat_leBytes : ∀ w n, n < 256 ^ w → leNat (Spec.leBytes w n) = n
  | 0, n, h => by
    simp only [Nat.pow_zero] at h
    simp only [Spec.leBytes, leNat]; omega
  | w + 1, n, h => by
    simp only [Spec.leBytes, leNat]
    rw [leNat_leBytes w (n / 256) (by rw [Nat.pow_succ] at h; omega)]
    omega

theorem bytesAt_append {a b c : List Byte} : bytesAt (a ++ (b ++ c)) a.length b.length = b := by
  simp [bytesAt]

theorem bytesAt_of {file a b c : List Byte} {pos n : ℕ} (h : file = a ++ (b ++ c))
    (hp : a.length = pos) (hn : b.length = n) : bytesAt file pos n = b := by
  subst h; subst hp; subst hn; exact bytesAt_append

theorem uintAt_of {file a c : List Byte} {pos w n : ℕ} (h : file = a ++ (Spec.leBytes w n ++ c))
    (hp : a.length = pos) (hn : n < 256 ^ w) : uintAt file pos w = some n := by
  unfold uintAt
  rw [bytesAt_of h hp (Spec.leBytes_length w n), Spec.leBytes_length, if_pos rfl,
    leNat_leBytes w n hn]

/-- Numbers written one after the other are read back. -/
theorem leNats_flatMap (w : ℕ) : ∀ (l : List ℕ) (rest : List Byte), (∀ n ∈ l, n < 256 ^ w) →
    leNats w l.length (l.flatMap (Spec.leBytes w) ++ rest) = l
  | [], _, _ => rfl
  | n :: l, rest, h => by
    simp only [List.length_cons, leNats, List.flatMap_cons, List.append_assoc]
    rw [List.take_append_of_le_length (by simp), List.take_of_length_le (by simp),
      leNat_leBytes w n (h n List.mem_cons_self)]
    have : ∀ c : List Byte, (Spec.leBytes w n ++ c).drop w = c := fun c => by
      rw [List.drop_append_of_le_length (by simp), List.drop_of_length_le (by simp),
        List.nil_append]
    rw [this, leNats_flatMap w l rest fun m hm => h m (List.mem_cons_of_mem _ hm)]

end Kp
