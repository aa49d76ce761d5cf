import Verif.Props.EndToEnd
import Verif.Lemmas.Talk
import Verif.Lemmas.Retry
/-!
# C25 near the message limit

`C25_blocking_and_async_agree` assumes that the message limit is not reported. These theorems say what holds on
streams on which it is.
-/

namespace WS

theorem recvMany_count (n : Nat) (r : Receiver) (s : Src) : (r.recvMany n s).1.length = n := by
  induction n generalizing r s with
  | zero => rfl
  | succ n ih => simp [Receiver.recvMany, ih]

/-- C25 without an assumption about limits: on the same bytes, however they are cut on either side, both report the
same up to the place where one of them reports the message limit. -/
theorem C25_agree_until_limit (ctx : Context) (maxDf maxMsg n : Nat) (bs : Bytes) (hbs : bs ≠ [])
    (hmem : bs.length ≤ isizeMax) (s₁ s₂ : Src) (h₁ : s₁.Clean) (h₂ : s₂.Ready) (f₁ : s₁.flat = bs) (f₂ : s₂.flat = bs) :
    ∃ k, k ≤ n ∧
      Spec.Agree (((Receiver.newWithLimits (decide (ctx = .server)) maxDf maxMsg).recvMany n s₁).1.take k)
        (((Framed.new (MsgCodec.newWithLimits ctx maxDf maxMsg)).nextMany msgDecoder n s₂).1.take k) ∧
      (k < n →
        ((Receiver.newWithLimits (decide (ctx = .server)) maxDf maxMsg).recvMany n s₁).1[k]? = some (.err msgLimitErr) ∨
        ((Framed.new (MsgCodec.newWithLimits ctx maxDf maxMsg)).nextMany msgDecoder n [.chunk bs]).1[k]? =
          some (.err msgLimitErr)) := by
  generalize hr : Receiver.newWithLimits (decide (ctx = .server)) maxDf maxMsg = r
  generalize hf : Framed.new (MsgCodec.newWithLimits ctx maxDf maxMsg) = fr
  have tr : ∀ k, k ≤ n → (r.recvMany n s₁).1.take k = (r.recvMany k s₁).1 := by
    intro k hk
    obtain ⟨j, rfl⟩ : ∃ j, n = k + j := ⟨n - k, by omega⟩
    rw [recvMany_add]
    exact List.take_left' (recvMany_count k r s₁)
  have tf : ∀ k s, k ≤ n → (fr.nextMany msgDecoder n s).1.take k = (fr.nextMany msgDecoder k s).1 := by
    intro k s hk
    obtain ⟨j, rfl⟩ : ∃ j, n = k + j := ⟨n - k, by omega⟩
    rw [nextMany_add]
    exact List.take_left' (nextMany_length msgDecoder k fr s)
  -- the longest beginning without a report
  have key : ∀ m, m ≤ n → ∃ k, k ≤ m ∧ Res.err msgLimitErr ∉ (r.recvMany n s₁).1.take k ∧
      Item.err msgLimitErr ∉ (fr.nextMany msgDecoder n [.chunk bs]).1.take k ∧
      (k < m → (r.recvMany n s₁).1[k]? = some (.err msgLimitErr) ∨
        (fr.nextMany msgDecoder n [.chunk bs]).1[k]? = some (.err msgLimitErr)) := by
    intro m
    induction m with
    | zero => intro _; exact ⟨0, Nat.le_refl _, by simp, by simp, by omega⟩
    | succ m ih =>
      intro hm
      obtain ⟨k, hk, a, b, c⟩ := ih (by omega)
      by_cases hkm : k < m
      · exact ⟨k, by omega, a, b, fun _ => c hkm⟩
      · have hkm : k = m := by omega
        subst hkm
        by_cases hd : (r.recvMany n s₁).1[k]? = some (.err msgLimitErr) ∨
            (fr.nextMany msgDecoder n [.chunk bs]).1[k]? = some (.err msgLimitErr)
        · exact ⟨k, by omega, a, b, fun _ => hd⟩
        · simp only [not_or] at hd
          refine ⟨k + 1, Nat.le_refl _, ?_, ?_, by omega⟩
          · rw [List.take_add_one]
            simp only [List.mem_append, not_or, Option.mem_toList]
            exact ⟨a, hd.1⟩
          · rw [List.take_add_one]
            simp only [List.mem_append, not_or, Option.mem_toList]
            exact ⟨b, hd.2⟩
  obtain ⟨k, hk, a, b, c⟩ := key n (Nat.le_refl _)
  refine ⟨k, hk, ?_, c⟩
  rw [tr k hk] at a ⊢
  rw [tf k _ hk] at b ⊢
  subst hr hf
  exact C25_blocking_and_async_agree ctx maxDf maxMsg k bs hbs hmem s₁ s₂ h₁ h₂ f₁ f₂ a b

/-- A ping, and a message of which the blocking receiver refuses the second part. -/
example := C25_agree_until_limit .client 125 130 3 [0x89, 1, 7, 0x01, 1, 97, 0x00, 1, 98, 0x80, 1, 99] (by decide) (by decide)
  [.chunk [0x89, 1], .error .interrupted, .chunk [7, 0x01, 1, 97, 0x00, 1, 98, 0x80, 1, 99]]
  [.chunk [0x89, 1, 7, 0x01, 1, 97, 0x00, 1], .error .wouldBlock, .chunk [98, 0x80, 1, 99]]
  (by simp [Src.Clean]) (by simp [Src.Ready]) rfl rfl

/-- C25: the two do differ there, in both directions. A message whose size, as it is counted, is the limit exactly is
delivered by the async codec and refused by the blocking receiver; a first part that is over the limit by itself is
refused by the async codec and passed by the blocking receiver. -/
theorem C25_limits_differ :
    (((Receiver.newWithLimits false 125 130).recvMany 1 [.chunk [0x01, 1, 97, 0x00, 1, 98, 0x80, 1, 99]]).1 = [.err msgLimitErr] ∧
      ((Framed.new (MsgCodec.newWithLimits .client 125 130)).nextMany msgDecoder 1
        [.chunk [0x01, 1, 97, 0x00, 1, 98, 0x80, 1, 99]]).1 = [.item (.text [97, 98, 99])]) ∧
    (((Receiver.newWithLimits false 125 1).recvMany 1 [.chunk [0x01, 1, 72, 0x80, 1, 105]]).1 = [.ok (.text [72, 105])] ∧
      ((Framed.new (MsgCodec.newWithLimits .client 125 1)).nextMany msgDecoder 1 [.chunk [0x01, 1, 72, 0x80, 1, 105]]).1 =
        [.err msgLimitErr]) := by
  refine ⟨⟨?_, ?_⟩, ?_, ?_⟩ <;> decide +kernel

end WS
