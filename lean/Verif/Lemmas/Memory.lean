import Verif.Props.Head
import Verif.Props.Response
import Verif.Lemmas.Limits
import Verif.Lemmas.Send
import Verif.Model.Echo
/-! How far the buffers grow. -/

namespace WS
open Spec (FirstBlank)

/-! ## hyper's buffer -/

section
variable {R : Type} [HasSrc R]

/-- The sizes of the buffer: it begins with 4 KiB and grows fourfold until it has 512 KiB. -/
def bufferSizes : List Nat := [4096, 16384, 65536, 262144, 524288]

omit [HasSrc R] in
theorem maybeReserve_size {b : BufReader R} (h : b.buf.length ∈ bufferSizes) : b.maybeReserve.buf.length ∈ bufferSizes := by
  unfold BufReader.maybeReserve
  split
  · next hc =>
    simp only [List.length_append, List.length_replicate]
    have hm : maxBufferSize = 417792 := rfl
    simp only [bufferSizes, List.mem_cons, List.not_mem_nil, or_false] at h ⊢
    rw [hm] at hc ⊢
    omega
  · exact h

theorem readIntoBuf_size {b : BufReader R} (hw : b.WF) (h : b.buf.length ∈ bufferSizes) : b.readIntoBuf.2.buf.length ∈ bufferSizes := by
  have hs := maybeReserve_size h
  obtain ⟨⟨m1, m2⟩, -⟩ := maybeReserve_spec hw
  unfold BufReader.readIntoBuf
  simp only
  split
  · next hlt =>
    have hf := (read1_flat (b.maybeReserve.buf.length - b.maybeReserve.cap) (HasSrc.get b.maybeReserve.inner)).2
    cases hr : read1 (b.maybeReserve.buf.length - b.maybeReserve.cap) (HasSrc.get b.maybeReserve.inner) with
    | mk r s =>
      rw [hr] at hf
      cases r with
      | error k => exact hs
      | ok bs =>
        have hl := hf bs rfl
        have : (b.maybeReserve.buf.take b.maybeReserve.cap ++ bs ++ b.maybeReserve.buf.drop (b.maybeReserve.cap + bs.length)).length =
            b.maybeReserve.buf.length := by
          simp only [List.length_append, List.length_take, List.length_drop]; omega
        simp only [this]; exact hs
  · exact hs

omit [HasSrc R] in
theorem consume_buf (b : BufReader R) (n : Nat) : (b.consume n).buf = b.buf ∧ (b.consume n).inner = b.inner := by
  unfold BufReader.consume; split <;> exact ⟨rfl, rfl⟩

/-- The buffer keeps to its sizes, and what it has read from the transport fits into it. -/
theorem parseHead_size {σ line ok} (p : HeadParser σ line ok) (b : BufReader R) (hw : b.WF) (h : b.buf.length ∈ bufferSizes)
    (hpos : b.pos = 0) :
    (parseHead p b).2.buf.length ∈ bufferSizes ∧
    b.window.length + (HasSrc.get b.inner).flat.length ≤ (HasSrc.get (parseHead p b).2.inner).flat.length + (parseHead p b).2.buf.length := by
  have key : ∀ b' : BufReader R, b'.WF → b'.window ++ (HasSrc.get b'.inner).flat = b.window ++ (HasSrc.get b.inner).flat →
      b.window.length + (HasSrc.get b.inner).flat.length ≤ (HasSrc.get b'.inner).flat.length + b'.buf.length := by
    intro b' hw' he
    have := congrArg List.length he
    have hl := window_length hw'
    have := hw'.2
    simp only [List.length_append] at *
    omega
  fun_induction parseHead p b with
  | case1 b m n hp =>
    obtain ⟨c1, c2⟩ := consume_buf b n
    rw [c1, c2]
    exact ⟨h, key b hw rfl⟩
  | case2 b hp => exact ⟨h, key b hw rfl⟩
  | case3 b hp k b' hr =>
    have hs := readIntoBuf_spec hw
    have hz := readIntoBuf_size hw h
    rw [hr] at hs hz
    exact ⟨hz, key b' hs.1 hs.2.2.2.2⟩
  | case4 b hp b' hl hr =>
    have hs := readIntoBuf_spec hw
    have hz := readIntoBuf_size hw h
    rw [hr] at hs hz
    exact ⟨hz, key b' hs.1 hs.2.2.2.2⟩
  | case5 b hp b' hl hr =>
    have hs := readIntoBuf_spec hw
    have hz := readIntoBuf_size hw h
    rw [hr] at hs hz
    exact ⟨hz, key b' hs.1 hs.2.2.2.2⟩
  | case6 b hp n b' hr hn ih =>
    have hs := readIntoBuf_spec hw
    have hz := readIntoBuf_size hw h
    rw [hr] at hs hz
    have hlen := congrArg List.length hs.2.2.2.2
    simp only [List.length_append] at hlen
    have := ih hs.1 hz (hs.2.1.trans hpos) (fun b2 hw2 he => by
      have := congrArg List.length he
      have hl := window_length hw2
      have := hw2.2
      simp only [List.length_append] at *
      omega)
    exact ⟨this.1, by omega⟩

omit [HasSrc R] in
theorem new_size (d : R) : (BufReader.new d).buf.length ∈ bufferSizes := by
  show (List.replicate initBufferSize (0 : UInt8)).length ∈ bufferSizes
  rw [List.length_replicate]
  decide

theorem sizes_le {n : Nat} (h : n ∈ bufferSizes) : n ≤ 2 ^ 19 := by
  simp only [bufferSizes, List.mem_cons, List.not_mem_nil, or_false] at h
  omega

end

/-! ## The async read buffer -/

/-- A parser that takes at most `n` bytes and asks for more only if it has fewer. -/
def Within {α} (n : Nat) (m : Ps α) : Prop :=
  ∀ bs, (m bs = .more → bs.length < n) ∧ ∀ a rest, m bs = .ok a rest → bs.length ≤ rest.length + n

theorem within_pure {α} (a : α) : Within 0 (pure a : Ps α) := by
  intro bs
  refine ⟨fun h => ?_, fun a' rest h => ?_⟩
  · cases h
  · cases h; exact Nat.le_refl _

theorem within_fail {α} (e : WsErr) : Within 0 (Ps.fail e : Ps α) := by
  intro bs
  exact ⟨fun h => (by cases h), fun _ _ h => (by cases h)⟩

theorem within_take (n : Nat) : Within n (Ps.take n) := by
  intro bs
  unfold Ps.take
  split
  · refine ⟨fun h => (by cases h), fun a' rest h => ?_⟩
    cases h; simp only [List.length_drop]; omega
  · exact ⟨fun _ => by omega, fun a' rest h => by cases h⟩

theorem within_u8 : Within 1 Ps.u8 := by
  intro bs
  unfold Ps.u8
  split
  · exact ⟨fun _ => by simp, fun a' rest h => by cases h⟩
  · refine ⟨fun h => (by cases h), fun a' rest h => ?_⟩
    cases h; simp

theorem within_bind {α β} {m : Ps α} {f : α → Ps β} {n k : Nat} (hm : Within n m) (hf : ∀ a, Within k (f a)) : Within (n + k) (m >>= f) := by
  intro bs
  have h1 := hm bs
  show (Ps.bind m f bs = .more → _) ∧ ∀ a rest, Ps.bind m f bs = .ok a rest → _
  unfold Ps.bind
  cases h : m bs with
  | more => exact ⟨fun _ => by have := h1.1 h; omega, fun a rest h => by cases h⟩
  | err e r => exact ⟨fun h => (by cases h), fun _ _ h => (by cases h)⟩
  | ok a r =>
    have h2 := hf a r
    have := h1.2 a r h
    exact ⟨fun h => by have := h2.1 h; omega, fun b rest h => by have := h2.2 b rest h; omega⟩

theorem within_mono {α} {m : Ps α} {n k : Nat} (h : Within n m) (hn : n ≤ k) : Within k m := fun bs =>
  ⟨fun g => Nat.lt_of_lt_of_le ((h bs).1 g) hn, fun a rest g => Nat.le_trans ((h bs).2 a rest g) (by omega)⟩

theorem within_ite {α} (c : Prop) [Decidable c] {p q : Ps α} {n : Nat} (hp : Within n p) (hq : Within n q) : Within n (if c then p else q) := by
  split <;> assumption

theorem within_header : Within 14 parseHeader := by
  unfold parseHeader
  refine within_mono (n := 1 + (1 + (8 + (4 + 0)))) ?_ (by decide)
  refine within_bind within_u8 fun b0 => within_bind within_u8 fun b1 => within_bind (n := 8) ?_ fun len => ?_
  · unfold parseLen
    simp only
    refine within_ite _ (within_mono (within_pure _) (by decide)) (within_ite _ ?_ ?_)
    · refine within_mono (n := (2 + 0) + 0) (within_bind (within_bind (within_take 2) fun _ => within_pure _) fun n => ?_) (by decide)
      exact within_ite _ (within_fail _) (within_pure _)
    · refine within_mono (n := (8 + 0) + 0) (within_bind (within_bind (within_take 8) fun _ => within_pure _) fun n => ?_) (by decide)
      exact within_ite _ (within_fail _) (within_pure _)
  · refine within_ite _ (within_mono (within_fail _) (by decide)) (within_ite _ (within_mono (within_fail _) (by decide)) ?_)
    refine within_bind ?_ fun _ => within_pure _
    unfold parseMask
    refine within_ite _ ?_ (within_mono (within_pure _) (by decide))
    exact within_mono (n := 1 + (1 + (1 + (1 + 0))))
      (within_bind within_u8 fun _ => within_bind within_u8 fun _ => within_bind within_u8 fun _ => within_bind within_u8 fun _ => within_pure _) (by decide)

/-- A frame that is waited for has fewer bytes than its header and the limit allow. -/
theorem decode_waits {c : DfCodec} {src src' : Bytes} (h : c.decode src = (.ok none, src')) :
    src' = src ∧ src.length < 14 + c.maxDf := by
  have hcur := readHeader_cursor src
  unfold DfCodec.decode at h
  cases hp : parseHeader src with
  | more =>
    rw [hp] at hcur
    obtain ⟨s', hs⟩ := hcur
    rw [hs] at h
    have := (within_header src).1 hp
    cases h
    exact ⟨rfl, by omega⟩
  | err e rest =>
    rw [hp] at hcur
    obtain ⟨s', hs⟩ := hcur
    rw [hs] at h
    rcases parseHeader_err hp with rfl | rfl | rfl <;> cases h
  | ok hd rest =>
    rw [hp] at hcur
    obtain ⟨s', hs, hf⟩ := hcur
    have hl := (within_header src).2 hd rest hp
    rw [hs] at h
    simp only [hf] at h
    split at h
    · cases h
    · split at h
      · cases h
      · split at h
        · cases h; exact ⟨rfl, by omega⟩
        · split at h
          · cases h
          · split at h
            · cases h
            · split at h <;> cases h

theorem onFrame_done {maxMsg cur : Nat} {buffer b : List DataFrame} {f : DataFrame} {r : Res (Option OwnedMsg)}
    (h : MsgCodec.onFrame maxMsg buffer cur f = .done r b) : r ≠ .ok none := by
  have hb : ∀ x : Res OwnedMsg, (do let m ← x; pure (some m) : Res (Option OwnedMsg)) ≠ .ok none := by
    intro x hx
    cases x <;> cases hx
  unfold MsgCodec.onFrame at h
  simp only at h
  split at h
  · cases h; exact fun g => by cases g
  · split at h
    · cases h; exact hb _
    · split at h
      · cases h; exact fun g => by cases g
      · split at h
        · cases h; exact hb _
        · split at h
          · cases h; exact fun g => by cases g
          · split at h
            · cases h; exact fun g => by cases g
            · cases h

theorem loop_waits (c : MsgCodec) (cur : Nat) (src : Bytes) :
    (c.loop cur src).2.1.df = c.df ∧ ((c.loop cur src).1 = .ok none → (c.loop cur src).2.2.length < 14 + c.df.maxDf) := by
  fun_induction MsgCodec.loop c cur src with
  | case1 c cur src frame src' h r buffer hf => exact ⟨rfl, fun g => absurd g (onFrame_done hf)⟩
  | case2 c cur src frame src' h buffer cur' hf ih => exact ih
  | case3 c cur src src' h =>
    obtain ⟨rfl, hl⟩ := decode_waits h
    exact ⟨rfl, fun _ => hl⟩
  | case4 => exact ⟨rfl, fun g => by cases g⟩
  | case5 => exact ⟨rfl, fun g => by cases g⟩

section
variable {σ α : Type} {dec : Decoder σ α}

/-- A decoder that asks for more only when it has fewer than `limit` bytes, for codecs that satisfy `P`. -/
structure Modest (dec : Decoder σ α) (P : σ → Prop) (limit : Nat) : Prop where
  keeps : ∀ c src, P c → P (dec c src).2.1
  shrinks : ∀ c src, (dec c src).2.2.length ≤ src.length
  waits : ∀ c src, P c → (dec c src).1 = .ok none → (dec c src).2.2.length < limit

/-- No chunk is longer than `K`. -/
def Src.Pieces (K : Nat) (s : Src) : Prop := ∀ b, Ev.chunk b ∈ s → b.length ≤ K

/-- The buffer is within bounds, and short when the next poll will read. -/
def Framed.Slim (P : σ → Prop) (limit top : Nat) (fr : Framed σ) : Prop :=
  P fr.codec ∧ fr.buf.length ≤ top ∧ (fr.readable = false → fr.buf.length < limit)

theorem pollEof_slim {P : σ → Prop} {limit top : Nat} (hd : Modest dec P limit) {fr : Framed σ} (h1 : P fr.codec) (h2 : fr.buf.length ≤ top)
    (h3 : fr.readable = true) : (Framed.pollEof dec fr).2.Slim P limit top := by
  have g1 := hd.keeps fr.codec fr.buf h1
  have g2 := hd.shrinks fr.codec fr.buf
  unfold Framed.pollEof
  split <;> rename_i heq <;> rw [heq] at g1 g2 <;>
    exact ⟨g1, Nat.le_trans g2 h2, fun g => by rw [show _ = fr.readable from rfl] at g; rw [h3] at g; cases g⟩

theorem pollRead_slim {P : σ → Prop} {limit top K : Nat} (hd : Modest dec P limit) (htop : limit + K ≤ top + 1) (s : Src) (hs : s.Pieces K)
    (fr : Framed σ) (h1 : P fr.codec) (h2 : fr.buf.length < limit) (h3 : fr.buf.length ≤ top) :
    (fr.pollRead dec s).2.1.Slim P limit top := by
  induction s generalizing fr with
  | nil => exact pollEof_slim (fr := { fr with eof := true, readable := true }) hd h1 h3 rfl
  | cons e rest ih =>
    have hr : Src.Pieces K rest := fun b hb => hs b (List.mem_cons_of_mem _ hb)
    cases e with
    | error k =>
      unfold Framed.pollRead
      split
      · exact ⟨h1, h3, fun _ => h2⟩
      · exact ⟨h1, h3, fun _ => h2⟩
    | chunk b =>
      have hb := hs b List.mem_cons_self
      unfold Framed.pollRead
      split
      · exact pollEof_slim (fr := { fr with eof := true, readable := true }) hd h1 h3 rfl
      · have g1 := hd.keeps fr.codec (fr.buf ++ b) h1
        have g2 := hd.shrinks fr.codec (fr.buf ++ b)
        have g3 := hd.waits fr.codec (fr.buf ++ b) h1
        have g4 : (fr.buf ++ b).length ≤ top := by rw [List.length_append]; omega
        split <;> rename_i heq <;> rw [heq] at g1 g2 g3
        · exact ⟨g1, Nat.le_trans g2 g4, fun g => by cases g⟩
        · exact ih hr _ g1 (g3 rfl) (Nat.le_trans g2 g4)
        · exact ⟨g1, Nat.le_trans g2 g4, fun g => by cases g⟩
        · exact ⟨g1, Nat.le_trans g2 g4, fun g => by cases g⟩

theorem poll_slim {P : σ → Prop} {limit top K : Nat} (hd : Modest dec P limit) (htop : limit + K ≤ top + 1) (s : Src) (hs : s.Pieces K)
    (fr : Framed σ) (h : fr.Slim P limit top) : (fr.poll dec s).2.1.Slim P limit top := by
  obtain ⟨h1, h2, h3⟩ := h
  unfold Framed.poll
  split
  · next hrd =>
    split
    · exact pollEof_slim hd h1 h2 hrd
    · have g1 := hd.keeps fr.codec fr.buf h1
      have g2 := hd.shrinks fr.codec fr.buf
      have g3 := hd.waits fr.codec fr.buf h1
      split <;> rename_i heq <;> rw [heq] at g1 g2 g3
      · exact ⟨g1, Nat.le_trans g2 h2, fun g => by rw [show _ = fr.readable from rfl, hrd] at g; cases g⟩
      · exact pollRead_slim hd htop s hs _ g1 (g3 rfl) (Nat.le_trans g2 h2)
      · exact ⟨g1, Nat.le_trans g2 h2, fun g => by rw [show _ = fr.readable from rfl, hrd] at g; cases g⟩
      · exact ⟨g1, Nat.le_trans g2 h2, fun g => by rw [show _ = fr.readable from rfl, hrd] at g; cases g⟩
  · next hrd => exact pollRead_slim hd htop s hs fr h1 (h3 (by simpa using hrd)) h2

/-- What a poll leaves of the script has no longer chunks. -/
theorem pollRead_pieces {K : Nat} (s : Src) (hs : s.Pieces K) (fr : Framed σ) : (fr.pollRead dec s).2.2.Pieces K := by
  induction s generalizing fr with
  | nil => exact hs
  | cons e rest ih =>
    have hr : Src.Pieces K rest := fun b hb => hs b (List.mem_cons_of_mem _ hb)
    cases e with
    | error k => unfold Framed.pollRead; split <;> exact hr
    | chunk b =>
      unfold Framed.pollRead
      split
      · exact hr
      · split
        · exact hr
        · exact ih hr _
        · exact hr
        · exact hr

theorem poll_pieces {K : Nat} (s : Src) (hs : s.Pieces K) (fr : Framed σ) : (fr.poll dec s).2.2.Pieces K := by
  unfold Framed.poll
  split
  · split
    · exact hs
    · split
      · exact hs
      · exact pollRead_pieces s hs _
      · exact hs
      · exact hs
  · exact pollRead_pieces s hs _

end

theorem pieces_flat (s : Src) : s.Pieces s.flat.length := by
  induction s with
  | nil => intro b hb; cases hb
  | cons e s ih =>
    intro b hb
    rcases List.mem_cons.mp hb with h | h
    · subst h
      simp [Src.flat]
    · have := ih b h
      cases e with
      | chunk a => simp only [Src.flat, List.length_append]; omega
      | error k => exact this

section
variable {σ α : Type} {dec : Decoder σ α}

theorem pollRead_rests (s : Src) (fr : Framed σ) (hr : fr.readable = false) (h : (fr.pollRead dec s).1 = .notReady) :
    (fr.pollRead dec s).2.1.readable = false := by
  induction s generalizing fr with
  | nil => cases h
  | cons e rest ih =>
    cases e with
    | error k =>
      unfold Framed.pollRead at h ⊢
      split
      · exact hr
      · exact hr
    | chunk b =>
      unfold Framed.pollRead at h ⊢
      split
      · next hb => rw [if_pos hb] at h; cases h
      · next hb =>
        rw [if_neg hb] at h
        split <;> rename_i heq <;> rw [heq] at h
        · cases h
        · exact ih _ rfl h
        · cases h
        · cases h

theorem poll_rests (fr : Framed σ) (s : Src) (h : (fr.poll dec s).1 = .notReady) : (fr.poll dec s).2.1.readable = false := by
  unfold Framed.poll at h ⊢
  split
  · next hr =>
    rw [if_pos hr] at h
    split
    · next he => rw [if_pos he] at h; cases h
    · next he =>
      rw [if_neg he] at h
      split <;> rename_i heq <;> rw [heq] at h
      · cases h
      · exact pollRead_rests _ _ rfl h
      · cases h
      · cases h
  · next hr =>
    rw [if_neg hr] at h
    exact pollRead_rests _ _ (by simpa using hr) h

end

theorem dfDecoder_modest (limit : Nat) : Modest dfDecoder (fun c => c.maxDf ≤ limit) (14 + limit) where
  keeps c src h := h
  shrinks c src := DfCodec.decode_le c src
  waits c src h g := by
    cases hd : c.decode src with
    | mk r src' =>
      have : r = .ok none := by simpa [dfDecoder, hd] using g
      subst this
      obtain ⟨rfl, hl⟩ := decode_waits hd
      show (c.decode src').2.length < _
      rw [hd]
      exact Nat.lt_of_lt_of_le hl (by omega)

theorem msgDecoder_modest (limit : Nat) : Modest msgDecoder (fun c => c.df.maxDf ≤ limit) (14 + limit) where
  keeps c src h := by
    show (c.loop (heldLen c.buffer) src).2.1.df.maxDf ≤ limit
    rw [(loop_waits c _ src).1]; exact h
  shrinks c src := (msgDecoder_shrinking c src).1
  waits c src h g := by
    have := (loop_waits c (heldLen c.buffer) src).2 g
    exact Nat.lt_of_lt_of_le this (by omega)

/-- What is left in the buffer with a head that was understood is less than one read. -/
theorem pollRead_left {σ line ok} (p : HeadParser σ line ok) (s : Src) (fr : Framed Unit) {head rest : Bytes} {K : Nat} (hk : s.Pieces K)
    (hf : FirstBlank (fr.buf ++ s.flat) head rest) (hn : splitOffHttp fr.buf = none) (ha : headAnswer p head ≠ .ok none) :
    (∀ m, (fr.pollRead (httpDecoder p) s).1 = .ready (.item m) → (fr.pollRead (httpDecoder p) s).2.1.buf.length < K) ∧
    ((fr.pollRead (httpDecoder p) s).1 = .notReady → splitOffHttp (fr.pollRead (httpDecoder p) s).2.1.buf = none) := by
  induction s generalizing fr with
  | nil =>
    rw [Src.flat, List.append_nil] at hf
    rw [splitOff_iff.mpr hf] at hn; cases hn
  | cons e tl ih =>
    have hk' : Src.Pieces K tl := fun b hb => hk b (List.mem_cons_of_mem _ hb)
    cases e with
    | error k =>
      rw [Framed.pollRead]
      split
      · exact ⟨fun m hm => (by cases hm), fun _ => hn⟩
      · exact ⟨fun m hm => (by cases hm), fun h => (by cases h)⟩
    | chunk b =>
      have hbK := hk b List.mem_cons_self
      rw [Framed.pollRead]
      by_cases hb : b = []
      · rw [if_pos hb]
        unfold Framed.pollEof
        simp only [decode_none p hn]
        exact ⟨fun m hm => (by split at hm <;> cases hm), fun h => (by cases h)⟩
      · rw [if_neg hb]
        have hf2 : FirstBlank ((fr.buf ++ b) ++ Src.flat tl) head rest := by
          rw [List.append_assoc]; exact hf
        rcases splitOff_prefix hf2 with ⟨r, h1, h2, h3⟩ | h3
        · have hlen : r.length < K := by
            have hfb := splitOff_iff.mp h3
            have hsp := hfb.1
            have hl := congrArg List.length hsp
            simp only [List.length_append] at hl
            have hlt : fr.buf.length < head.length := by
              rcases Nat.lt_or_ge fr.buf.length head.length with h | h
              · exact h
              · exfalso
                have hpre : head <+: fr.buf := by
                  have hp1 : head <+: fr.buf ++ b := ⟨r, hsp.symm⟩
                  exact List.prefix_of_prefix_length_le hp1 (List.prefix_append _ _) h
                obtain ⟨t, ht⟩ := hpre
                have : splitOffHttp fr.buf = some (head, t) := splitOff_iff.mpr ⟨ht.symm, hfb.2⟩
                rw [this] at hn; cases hn
            omega
          rw [decode_head p h3]
          cases hh : headAnswer p head with
          | ok o =>
            cases o with
            | none => exact absurd hh ha
            | some m => exact ⟨fun _ _ => hlen, fun h => by cases h⟩
          | err e => exact ⟨fun m hm => (by cases hm), fun h => (by cases h)⟩
          | panic w => exact ⟨fun m hm => (by cases hm), fun h => (by cases h)⟩
        · rw [decode_none p h3]
          exact ih { fr with codec := (), buf := fr.buf ++ b, readable := false } hk' hf2 h3

/-! ## The async write queue -/

theorem startSend_short (fw : FramedWrite) (v : FrameView) (hv : v.Lawful) (key : Key4) (extra : Nat) (w : Sink) (hw : fw.buf.WF) {L : Nat}
    (hL : v.frameSize (!fw.isServer) ≤ L) (hq : fw.buf.data.length < 8 * 1024 + L) :
    (fw.startSend v key extra w).2.1.buf.data.length < 8 * 1024 + L := by
  have henc : ∀ (f : FramedWrite) (w : Sink), f.buf.WF → f.isServer = fw.isServer → f.buf.data.length < 8 * 1024 →
      (match encodeInto f.isServer v key extra f.buf with
          | (.ok _, buf) => (SendRes.ready, { f with buf := buf }, w)
          | (.err e, buf) => (.err e, { f with buf := buf }, w)
          | (.panic e, buf) => (.panic e, { f with buf := buf }, w)).2.1.buf.data.length < 8 * 1024 + L := by
    intro f w hf hs hl
    have h := C07_encode_into_buffer f.isServer v hv key extra f.buf hf
    cases he : v.encode (if f.isServer then none else some key) with
    | ok bs =>
      rw [he] at h
      obtain ⟨cap, h1, -⟩ := h
      rw [h1]
      have := C07_size_exact v hv _ bs he
      have e : (if f.isServer then none else some key : Option Key4).isSome = !fw.isServer := by rw [← hs]; cases f.isServer <;> rfl
      rw [e] at this
      simp only [List.length_append]
      omega
    | err e =>
      rw [he] at h
      obtain ⟨cap, h1⟩ := h
      rw [h1]
      simp only
      omega
    | panic e => rw [he] at h; exact h.elim
  unfold FramedWrite.startSend
  simp only
  split
  · obtain ⟨a, b, c, d, -, f⟩ := pollComplete_inv fw w hw
    have hlen := congrArg List.length a
    have hd := d.length_le
    simp only [List.length_append] at hlen
    cases hp : fw.pollComplete w with
    | mk r q =>
      obtain ⟨fw', w'⟩ := q
      rw [hp] at b c hlen hd f
      simp only at b c hlen hd f
      have back : fw'.buf.data.length < 8 * 1024 + L := by omega
      cases r with
      | ready =>
        simp only
        split
        · exact back
        · exact henc fw' w' b c (by omega)
      | notReady =>
        simp only
        split
        · exact back
        · exact henc fw' w' b c (by omega)
      | err e => exact back
      | panic e => exact back
  · exact henc fw w hw rfl (by omega)

end WS
