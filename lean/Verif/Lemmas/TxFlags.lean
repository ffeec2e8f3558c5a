import Verif.Spec.Status
import Verif.Lemmas.Grows
/- The flags of an incoming transaction. -/
set_option autoImplicit false

namespace Gb.Driver

theorem txFlags_eq {io : Io} {d : Bytes} {t : TxHeader} (h : decodeTxHeader io d = some t) :
    t.flags = txFlags io d := by
  simp only [decodeTxHeader, Option.bind_eq_bind, Option.bind_eq_some_iff] at h
  obtain ⟨_, _, _, _, _, _, fl, hf, _, _, _, _, _, _, _, _, _, _, _, _, h⟩ := h
  cases h
  simp only [u32At, Option.map_eq_some_iff] at hf
  obtain ⟨x, h1, h2⟩ := hf
  rw [slice_eq_some_iff] at h1
  rw [← h2, ← h1.2]
  rfl

theorem decoded_oneway {io : Io} {m : Mem} {d : Bytes} {tx : TxData}
    (h : decodeTransactionData io m d = .ok tx) :
    tx.oneway = (decide (txFlags io d / tfStatusCode % 2 ≠ 1) && decide (txFlags io d % 2 = tfOneWay)) := by
  unfold decodeTransactionData at h
  split at h
  · cases h
  · rename_i t ht
    rw [← txFlags_eq ht]
    simp only [] at h
    split at h
    · rename_i hf
      obtain ⟨st, _, h2⟩ := bind_ok h
      cases h2
      simp [tfStatusCode, hf]
    · rename_i hf
      obtain ⟨st, _, h2⟩ := bind_ok h
      cases h2
      simp only [tfStatusCode, tfOneWay, hf, ne_eq, not_false_eq_true, decide_true, Bool.true_and]
      exact decide_eq_decide.mpr Iff.rfl

end Gb.Driver
