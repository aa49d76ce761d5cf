import Verif.Model.Parallel
import Verif.Lemmas.Talk
import Verif.Lemmas.Heard
import Verif.Lemmas.Connection
import Verif.Props.Head
/-! Lemmas about the parallel server. -/

namespace WS

open Spec

/-- A send on an idle queue, on any transport: the whole frame goes out and the queue is idle again, or a part of the frame goes out. -/
theorem sendAwait_idle (fw : FramedWrite) (w : Sink) (hb : fw.buf.WF) (he : fw.buf.data = []) {v : FrameView} (hv : v.Lawful) (key : Key4)
    (extra : Nat) {bs : Bytes} (hbs : v.encode (if fw.isServer then none else some key) = .ok bs) :
    (∃ fw' w', fw.sendAwait v key extra w = (.ready, fw', w') ∧ w'.wire = w.wire ++ bs ∧ fw'.buf.WF ∧ fw'.buf.data = [] ∧ fw'.isServer = fw.isServer) ∨
    ∃ r fw' w' pre, fw.sendAwait v key extra w = (r, fw', w') ∧ r ≠ .ready ∧ pre <+: bs ∧ w'.wire = w.wire ++ pre := by
  have hc := C07_encode_into_buffer fw.isServer v hv key extra fw.buf hb
  rw [hbs] at hc
  obtain ⟨cap, h1, h2⟩ := hc
  have hss : fw.startSend v key extra w = (.ready, { fw with buf := ⟨fw.buf.data ++ bs, cap⟩ }, w) := by
    unfold FramedWrite.startSend
    simp only
    rw [if_neg (by rw [he]; decide)]
    split
    · next q => rw [h1] at q; cases q; rfl
    · next q => rw [h1] at q; cases q
    · next q => rw [h1] at q; cases q
  have hs := drain_spec { fw with buf := ⟨fw.buf.data ++ bs, cap⟩ } w h2
  have hi : (FramedWrite.drain { fw with buf := ⟨fw.buf.data ++ bs, cap⟩ } w).2.1.isServer = fw.isServer := by
    have : ∀ (fw : FramedWrite) (w : Sink), (fw.drain w).2.1.isServer = fw.isServer := by
      intro fw w
      fun_induction FramedWrite.drain fw w with
      | case1 fw w fw' w' hp ih =>
        have := pollComplete_isServer fw w; rw [hp] at this; exact ih.trans this
      | case2 fw w r fw' w' hne hp =>
        have := pollComplete_isServer fw w; rw [hp] at this; exact this
    exact this _ _
  have e : fw.sendAwait v key extra w = FramedWrite.drain { fw with buf := ⟨fw.buf.data ++ bs, cap⟩ } w := by
    rw [FramedWrite.sendAwait]
    split
    · next q => rw [hss] at q; cases q
    · next q => rw [hss] at q; cases q; rfl
    · next q1 q2 q => rw [hss] at q; cases q; exact absurd rfl q2
  rw [e]
  generalize FramedWrite.drain { fw with buf := ⟨fw.buf.data ++ bs, cap⟩ } w = x at hs hi
  obtain ⟨r, fw', w'⟩ := x
  simp only [he, List.nil_append] at hs hi
  obtain ⟨s1, ⟨pre, s2⟩, s3, s4, s5, s6⟩ := hs
  by_cases hr : r = .ready
  · subst hr
    rw [s3 rfl, List.append_nil] at s1
    exact .inl ⟨fw', w', rfl, s1, s6, s3 rfl, hi⟩
  · refine .inr ⟨r, fw', w', pre, rfl, hr, ?_, s2.symm⟩
    rw [← s2, List.append_assoc, List.append_cancel_left_eq] at s1
    exact ⟨_, s1⟩

theorem sendAwait_result {fw fw' : FramedWrite} {w w' : Sink} {r : SendRes} (hb : fw.buf.WF) (he : fw.buf.data = []) {v : FrameView} (hv : v.Lawful)
    {key : Key4} {extra : Nat} (h : fw.sendAwait v key extra w = (r, fw', w')) {bs : Bytes}
    (hbs : v.encode (if fw.isServer then none else some key) = .ok bs) :
    (r = .ready ∧ w'.wire = w.wire ++ bs ∧ fw'.buf.WF ∧ fw'.buf.data = [] ∧ fw'.isServer = fw.isServer) ∨
    r ≠ .ready ∧ ∃ pre, pre <+: bs ∧ w'.wire = w.wire ++ pre := by
  rcases sendAwait_idle fw w hb he hv key extra hbs with ⟨_, _, e, h1⟩ | ⟨_, _, _, pre, e, h1, h2⟩
  · rw [h] at e; cases e; exact .inl ⟨rfl, h1⟩
  · rw [h] at e; cases e; exact .inr ⟨h1, pre, h2⟩

theorem httpSend_idle {head : Bytes} {extra : Nat} {w w' : Sink} {fw : FramedWrite} (h : httpSend head extra w = (.ready, fw, w')) :
    fw.buf.data = [] := by
  have := httpSend_spec head extra w
  rw [h] at this
  rcases this with ⟨-, -, h⟩ | ⟨e, pre, h, -⟩
  · exact h
  · cases h

/-- What `accept` leaves: an idle queue on the server's side, and an empty receiver with the default limits. -/
theorem accept_leaves [B64] (u : AsyncUpgrade) (extra : Nat) (c : AsyncClient) (h : u.accept extra = .client c) :
    c.write.buf.WF ∧ c.write.buf.data = [] ∧ c.write.isServer = true ∧
      c.read = Framed.fromParts (MsgCodec.newWithLimits .server defaultMaxDataframe defaultMaxMessage) u.buffer ∧
      c.stream.input = u.stream.input := by
  have h1 : (u.addCustom none).stream = u.stream := rfl
  unfold AsyncUpgrade.accept AsyncUpgrade.internalAccept at h
  replace h := asyncAccept_client h
  unfold AsyncUpgrade.acceptText Upgrade.prepareHeaders at h
  simp only at h
  cases hk : (u.addCustom none).request.headers.getKey with
  | none => rw [hk] at h; cases h
  | some key =>
    rw [hk] at h
    simp only at h
    split at h
    · next fw w hq =>
      simp only [AsyncRes.client.injEq] at h
      subst h
      have hd := httpSend_idle hq
      exact ⟨(httpSend_eq_keeps hq).2, hd, rfl, rfl, rfl⟩
    · cases h
    · cases h
    · cases h

/-! ## Tables -/

theorem Table.mem_insert {α} {t : List (Nat × α)} {id : Nat} {a : α} {p : Nat × α} :
    p ∈ Table.insert t id a ↔ p = (id, a) ∨ p ∈ t ∧ p.1 ≠ id := by
  simp [Table.insert, List.mem_filter]

theorem Table.mem_remove {α} {t : List (Nat × α)} {id : Nat} {p : Nat × α} : p ∈ Table.remove t id ↔ p ∈ t ∧ p.1 ≠ id := by
  simp [Table.remove, List.mem_filter]

theorem Table.insert_new {α} {t : List (Nat × α)} {id : Nat} (a : α) (h : id ∉ t.map Prod.fst) : Table.insert t id a = (id, a) :: t := by
  unfold Table.insert
  congr 1
  refine List.filter_eq_self.mpr fun p hp => ?_
  simp only [ne_eq, decide_eq_true_eq]
  exact fun e => h (e ▸ List.mem_map_of_mem hp)

theorem Table.perm_remove {α} {t : List (Nat × α)} {id : Nat} {a : α} (hn : (t.map Prod.fst).Nodup) (h : t.lookup id = some a) :
    t.Perm ((id, a) :: Table.remove t id) := by
  induction t with
  | nil => cases h
  | cons p t ih =>
    obtain ⟨j, b⟩ := p
    simp only [List.map_cons, List.nodup_cons] at hn
    simp only [List.lookup] at h
    by_cases hj : id = j
    · subst hj
      simp only [beq_self_eq_true, Option.some.injEq] at h
      subst h
      have : Table.remove ((id, b) :: t) id = t := by
        unfold Table.remove
        rw [List.filter_cons_of_neg (by simp)]
        refine List.filter_eq_self.mpr fun p hp => ?_
        simp only [ne_eq, decide_eq_true_eq]
        exact fun e => hn.1 (e ▸ List.mem_map_of_mem hp)
      rw [this]
    · have : (id == j) = false := by simpa using hj
      rw [this] at h
      have e : Table.remove ((j, b) :: t) id = (j, b) :: Table.remove t id := by
        unfold Table.remove
        rw [List.filter_cons_of_pos (by simp; exact fun e => hj e.symm)]
      rw [e]
      exact (List.Perm.cons _ (ih hn.2 h)).trans (List.Perm.swap _ _ _)

theorem perm_eraseIdx {α} {l : List α} {i : Nat} {a : α} (h : l[i]? = some a) : l.Perm (a :: l.eraseIdx i) := by
  induction l generalizing i with
  | nil => simp at h
  | cons b l ih =>
    cases i with
    | zero => simp at h; subst h; simp
    | succ i =>
      simp only [List.getElem?_cons_succ] at h
      rw [List.eraseIdx_cons_succ]
      exact (List.Perm.cons _ (ih h)).trans (List.Perm.swap _ _ _)

/-! ## Identifiers -/

/-- The identifiers given out are 1, 2, …, `count`; every client's sending half is in one place, and so is its receiving half. -/
structure Parallel.Ids (st : Parallel) : Prop where
  opened : st.opened.map Prod.fst = List.range' 1 st.count
  count : st.count ≤ u32Max
  out : ((st.pool ++ st.flying ++ st.lost).map Prod.fst).Perm (List.range' 1 st.count)
  inn : ((st.handing ++ st.streams ++ st.current.toList ++ st.closed).map Prod.fst).Perm (List.range' 1 st.count)

theorem Parallel.Ids.new : Parallel.new.Ids := ⟨rfl, by decide, .refl _, .refl _⟩

theorem range'_snoc (n : Nat) : List.range' 1 (n + 1) = List.range' 1 n ++ [n + 1] := by
  rw [List.range'_concat, Nat.one_mul, Nat.add_comm 1 n]

theorem Parallel.Ids.pool_nodup {st : Parallel} (h : st.Ids) : (st.pool.map Prod.fst).Nodup := by
  have := h.out.nodup_iff.mpr List.nodup_range'
  rw [List.append_assoc, List.map_append] at this
  exact (List.nodup_append.mp this).1

theorem Parallel.Ids.mem_pool {st : Parallel} (h : st.Ids) {id : Nat} (hm : id ∈ st.pool.map Prod.fst) : 1 ≤ id ∧ id ≤ st.count := by
  have := (h.out.mem_iff (a := id)).mp (by rw [List.append_assoc, List.map_append]; exact List.mem_append_left _ hm)
  rw [List.mem_range'_1] at this
  omega

theorem Parallel.Ids.step [B64] {st : Parallel} (h : st.Ids) (t : Turn) : (st.step t).Ids := by
  unfold Parallel.step
  split
  · exact h
  split
  · exact ⟨h.opened, h.count, h.out, h.inn⟩
  · exact ⟨h.opened, h.count, h.out, h.inn⟩
  · split
    · exact h
    · split
      · next c _ =>
        split
        · exact ⟨h.opened, h.count, h.out, h.inn⟩
        · next id hid =>
          unfold counterNext at hid
          split at hid
          · next hne =>
            cases hid
            have hc := h.count
            refine ⟨?_, ?_, ?_, ?_⟩
            · simp only [List.map_append, List.map_cons, List.map_nil, h.opened, range'_snoc]
            · show st.count + 1 ≤ u32Max
              omega
            · simp only
              rw [Table.insert_new _ (fun hm => by have := h.mem_pool hm; omega), range'_snoc]
              simp only [List.cons_append, List.map_cons]
              exact (List.Perm.cons _ h.out).trans (List.perm_append_singleton _ _).symm
            · simp only
              rw [range'_snoc]
              have : ((st.handing ++ [(st.count + 1, c.inlet)]) ++ st.streams ++ st.current.toList ++ st.closed).Perm
                  ((st.count + 1, c.inlet) :: (st.handing ++ st.streams ++ st.current.toList ++ st.closed)) := by
                simp only [List.append_assoc, List.singleton_append]
                exact List.perm_middle
              refine (this.map Prod.fst).trans ?_
              simp only [List.map_cons]
              exact (List.Perm.cons _ h.inn).trans (List.perm_append_singleton _ _).symm
          · cases hid
      · exact ⟨h.opened, h.count, h.out, h.inn⟩
  · split
    · exact h
    · next x hx =>
      refine ⟨h.opened, h.count, h.out, List.Perm.trans (List.Perm.map _ ?_) h.inn⟩
      simp only [List.append_assoc]
      refine List.Perm.trans ?_ (List.Perm.append_right _ (perm_eraseIdx hx)).symm
      simp only [List.cons_append, List.nil_append]
      rw [← List.append_assoc]
      refine List.Perm.trans List.perm_middle ?_
      rw [List.append_assoc]
  · exact ⟨h.opened, h.count, h.out, h.inn⟩
  · split
    · exact h
    · exact ⟨h.opened, h.count, h.out, h.inn⟩
  · split
    · exact h
    · next id rest _ =>
      split
      · exact ⟨h.opened, h.count, h.out, h.inn⟩
      · next o ho =>
        refine ⟨h.opened, h.count, List.Perm.trans (List.Perm.map _ ?_) h.out, h.inn⟩
        simp only [List.append_assoc]
        refine List.Perm.trans ?_ (List.Perm.append_right _ (Table.perm_remove h.pool_nodup ho)).symm
        simp only [List.cons_append, List.nil_append]
        rw [← List.append_assoc]
        refine List.Perm.trans List.perm_middle ?_
        rw [List.append_assoc]
  · split
    · exact h
    · next id o ho =>
      have hid : id ∉ st.pool.map Prod.fst := by
        have := h.out.nodup_iff.mpr List.nodup_range'
        rw [List.append_assoc, List.map_append, List.nodup_append, List.map_append] at this
        exact fun hm => this.2.2 id hm id (List.mem_append_left _ (List.mem_map_of_mem (List.mem_of_getElem? ho))) rfl
      split
      · refine ⟨h.opened, h.count, List.Perm.trans ?_ h.out, h.inn⟩
        simp only
        rw [Table.insert_new _ hid]
        simp only [List.cons_append, List.map_cons]
        have := (List.Perm.append_left st.pool (List.Perm.append_right st.lost (perm_eraseIdx ho))).symm.map Prod.fst
        simp only [List.append_assoc] at this ⊢
        refine List.Perm.trans ?_ this
        simp only [List.cons_append, List.map_append, List.map_cons]
        exact List.perm_middle.symm
      · refine ⟨h.opened, h.count, List.Perm.trans ?_ h.out, h.inn⟩
        simp only
        have := (List.Perm.append_left st.pool (List.Perm.append_right st.lost (perm_eraseIdx ho))).symm.map Prod.fst
        simp only [List.append_assoc] at this ⊢
        refine List.Perm.trans ?_ this
        simp only [List.cons_append, List.map_append, List.map_cons, List.map_nil]
        refine List.Perm.append_left _ ?_
        rw [← List.append_assoc]
        exact List.perm_append_singleton _ _
  · split
    · next hcur =>
      split
      · exact h
      · next x rest hs =>
        refine ⟨h.opened, h.count, h.out, List.Perm.trans (List.Perm.map _ ?_) h.inn⟩
        rw [hs, hcur]
        simp only [Option.toList, List.append_assoc, List.nil_append, List.cons_append]
        exact List.Perm.append_left _ List.perm_middle
    · next id inl hcur =>
      have hi := h.inn
      rw [hcur] at hi
      split
      · exact ⟨h.opened, h.count, h.out, by simpa [Option.toList] using hi⟩
      · exact ⟨h.opened, h.count, h.out, by simpa [Option.toList] using hi⟩
      · refine ⟨h.opened, h.count, h.out, List.Perm.trans ?_ hi⟩
        simp only [Option.toList, List.append_assoc, List.nil_append, List.map_append, List.map_cons, List.map_nil]
        refine List.Perm.append_left _ (List.Perm.append_left _ ?_)
        exact List.perm_append_comm
      · exact ⟨h.opened, h.count, h.out, h.inn⟩

theorem Parallel.Ids.run [B64] {st : Parallel} (h : st.Ids) (ts : List Turn) : (st.run ts).Ids := by
  induction ts generalizing st with
  | nil => exact h
  | cons t ts ih => exact ih (h.step t)

theorem Parallel.Ids.unique {st : Parallel} (h : st.Ids) {id : Nat} {c c' : AsyncClient} (h1 : (id, c) ∈ st.opened) (h2 : (id, c') ∈ st.opened) :
    c = c' := by
  have hn : (st.opened.map Prod.fst).Nodup := by rw [h.opened]; exact List.nodup_range'
  revert h1 h2 hn
  generalize st.opened = l
  intro h1 h2 hn
  induction l with
  | nil => cases h1
  | cons p l ih =>
    simp only [List.map_cons, List.nodup_cons] at hn
    rcases List.mem_cons.mp h1 with e1 | h1
    · rcases List.mem_cons.mp h2 with e2 | h2
      · rw [← e1] at e2; cases e2; rfl
      · exact absurd (List.mem_map_of_mem h2) (by rw [← e1] at hn; exact hn.1)
    · rcases List.mem_cons.mp h2 with e2 | h2
      · exact absurd (List.mem_map_of_mem h1) (by rw [← e2] at hn; exact hn.1)
      · exact ih h1 h2 hn.2

theorem Parallel.Ids.opened_le {st : Parallel} (h : st.Ids) {id : Nat} {c : AsyncClient} (hm : (id, c) ∈ st.opened) : 1 ≤ id ∧ id ≤ st.count := by
  have : id ∈ st.opened.map Prod.fst := List.mem_map_of_mem hm
  rw [h.opened, List.mem_range'_1] at this
  omega

/-! ## What is sent -/

/-- The greeting as the server sends it. -/
def greeting : Bytes := [0x81, 9, 72, 105, 32, 116, 104, 101, 114, 101, 33]

theorem greeting_eq : hiThere.view.encode none = .ok greeting := by decide +kernel

/-- A sending half with nothing queued that has sent `n` greetings since the handshake. -/
structure Greeted (c : AsyncClient) (n : Nat) (o : Outlet) : Prop where
  wf : o.write.buf.WF
  idle : o.write.buf.data = []
  server : o.write.isServer = true
  wire : o.output.wire = c.stream.output.wire ++ (List.replicate n greeting).flatten

structure Parallel.Wires (st : Parallel) : Prop where
  sending : ∀ id ∈ st.sending, id ≤ st.count
  pool : ∀ id o c, (id, o) ∈ st.pool → (id, c) ∈ st.opened → Greeted c (st.sending.count id) o
  flying : ∀ id o c, (id, o) ∈ st.flying → (id, c) ∈ st.opened → ∃ n, st.sending.count id = n + 1 ∧ Greeted c n o
  lost : ∀ id o c, (id, o) ∈ st.lost → (id, c) ∈ st.opened → ∃ n pre, st.sending.count id = n + 1 ∧ pre <+: greeting ∧
    o.output.wire = c.stream.output.wire ++ (List.replicate n greeting).flatten ++ pre

theorem Parallel.Wires.new : Parallel.new.Wires := ⟨by simp [Parallel.new], by simp [Parallel.new], by simp [Parallel.new], by simp [Parallel.new]⟩

theorem Parallel.Wires.step [B64] {st : Parallel} (hi : st.Ids) (h : st.Wires) (t : Turn) : (st.step t).Wires := by
  have hout := hi.out.nodup_iff.mpr List.nodup_range'
  have hmem : ∀ id o, (id, o) ∈ st.pool ++ st.flying ++ st.lost → id ≤ st.count := by
    intro id o hm
    have := (hi.out.mem_iff (a := id)).mp (List.mem_map_of_mem hm)
    rw [List.mem_range'_1] at this
    omega
  unfold Parallel.step
  split
  · exact h
  split
  · exact ⟨h.sending, h.pool, h.flying, h.lost⟩
  · exact ⟨h.sending, h.pool, h.flying, h.lost⟩
  · split
    · exact h
    · next u hu =>
      split
      · next c hc =>
        split
        · exact ⟨h.sending, h.pool, h.flying, h.lost⟩
        · next id hid =>
          unfold counterNext at hid
          split at hid
          · next hne =>
            cases hid
            obtain ⟨a1, a2, a3, -, -⟩ := accept_leaves u _ c hc
            have old : ∀ {id o} {c' : AsyncClient}, (id, o) ∈ st.pool ++ st.flying ++ st.lost → (id, c') ∈ st.opened ++ [(st.count + 1, c)] →
                (id, c') ∈ st.opened := by
              intro id o c' hm ho
              rcases List.mem_append.mp ho with ho | ho
              · exact ho
              · simp only [List.mem_singleton, Prod.mk.injEq] at ho
                have := hmem id o hm
                omega
            refine ⟨fun id hm => Nat.le_succ_of_le (h.sending id hm), ?_, ?_, ?_⟩
            · intro id o c' hm ho
              simp only at hm ho ⊢
              rcases Table.mem_insert.mp hm with e | ⟨hm, -⟩
              · cases e
                have e : c' = c := by
                  rcases List.mem_append.mp ho with ho | ho
                  · have := hi.opened_le ho; omega
                  · simp only [List.mem_singleton, Prod.mk.injEq, true_and] at ho; exact ho
                subst e
                have : st.sending.count (st.count + 1) = 0 :=
                  List.count_eq_zero.mpr fun hm => by have := h.sending _ hm; omega
                rw [this]
                exact ⟨a1, a2, a3, by simp [AsyncClient.outlet]⟩
              · exact h.pool id o c' hm (old (o := o) (by simp [hm]) ho)
            · intro id o c' hm ho
              exact h.flying id o c' hm (old (o := o) (by simp [show (id, o) ∈ st.flying from hm]) ho)
            · intro id o c' hm ho
              exact h.lost id o c' hm (old (o := o) (by simp [show (id, o) ∈ st.lost from hm]) ho)
          · cases hid
      · exact ⟨h.sending, h.pool, h.flying, h.lost⟩
  · split
    · exact h
    · exact ⟨h.sending, h.pool, h.flying, h.lost⟩
  · exact ⟨h.sending, h.pool, h.flying, h.lost⟩
  · split
    · exact h
    · exact ⟨h.sending, h.pool, h.flying, h.lost⟩
  · split
    · exact h
    · next id rest _ =>
      split
      · exact ⟨h.sending, h.pool, h.flying, h.lost⟩
      · next o ho =>
        have hp := (Table.perm_remove hi.pool_nodup ho).mem_iff (a := (id, o))
        have hin : (id, o) ∈ st.pool := hp.mpr List.mem_cons_self
        simp only [List.map_append, List.nodup_append] at hout
        have hne : ∀ {j : Nat} {o' : Outlet}, (j, o') ∈ st.flying ∨ (j, o') ∈ st.lost → j ≠ id := by
          intro j o' hj e
          subst e
          rcases hj with hj | hj
          · exact hout.1.2.2 j (List.mem_map_of_mem hin) j (List.mem_map_of_mem hj) rfl
          · exact hout.2.2 j (List.mem_append_left _ (List.mem_map_of_mem hin)) j (List.mem_map_of_mem hj) rfl
        have same : ∀ {j : Nat}, j ≠ id → (st.sending ++ [id]).count j = st.sending.count j := by
          intro j hj
          rw [List.count_append, List.count_singleton, if_neg (by simpa using fun e => hj e.symm), Nat.add_zero]
        refine ⟨?_, ?_, ?_, ?_⟩
        · intro j hj
          rcases List.mem_append.mp hj with hj | hj
          · exact h.sending j hj
          · simp only [List.mem_singleton] at hj
            subst hj
            exact hmem j o (by simp [hin])
        · intro j o' c hm hc
          obtain ⟨hm, hj⟩ := Table.mem_remove.mp hm
          show Greeted c ((st.sending ++ [id]).count j) o'
          rw [same hj]
          exact h.pool j o' c hm hc
        · intro j o' c hm hc
          rcases List.mem_append.mp hm with hm | hm
          · show ∃ n, (st.sending ++ [id]).count j = n + 1 ∧ _
            rw [same (hne (.inl hm))]
            exact h.flying j o' c hm hc
          · simp only [List.mem_singleton, Prod.mk.injEq] at hm
            obtain ⟨rfl, rfl⟩ := hm
            refine ⟨st.sending.count j, ?_, h.pool j o' c hin hc⟩
            show (st.sending ++ [j]).count j = _
            rw [List.count_append, List.count_singleton_self]
        · intro j o' c hm hc
          show ∃ n pre, (st.sending ++ [id]).count j = n + 1 ∧ _
          rw [same (hne (.inr hm))]
          exact h.lost j o' c hm hc
  · split
    · exact h
    · next id o ho =>
      have hin : (id, o) ∈ st.flying := List.mem_of_getElem? ho
      have sub : ∀ i p, p ∈ st.flying.eraseIdx i → p ∈ st.flying := fun i p hp => List.mem_of_mem_eraseIdx hp
      split
      · next fw w hs =>
        refine ⟨h.sending, ?_, fun j o' c hm hc => h.flying j o' c (sub _ _ hm) hc, h.lost⟩
        intro j o' c hm hc
        rcases Table.mem_insert.mp hm with e | ⟨hm, -⟩
        · simp only [Prod.mk.injEq] at e
          obtain ⟨rfl, rfl⟩ := e
          obtain ⟨n, hn, hg⟩ := h.flying j o c hin hc
          rcases sendAwait_result hg.wf hg.idle hiThere.lawful hs (bs := greeting) (by rw [hg.server]; exact greeting_eq) with
            ⟨-, w1, w2, w3, w4⟩ | ⟨hr, -⟩
          · show Greeted c (st.sending.count j) _
            rw [hn]
            refine ⟨w2, w3, by rw [w4]; exact hg.server, ?_⟩
            rw [w1, hg.wire, List.append_assoc, List.replicate_succ']
            simp
          · exact absurd rfl hr
        · exact h.pool j o' c hm hc
      · next r fw w hne hs =>
        refine ⟨h.sending, h.pool, fun j o' c hm hc => h.flying j o' c (sub _ _ hm) hc, ?_⟩
        intro j o' c hm hc
        rcases List.mem_append.mp hm with hm | hm
        · exact h.lost j o' c hm hc
        · simp only [List.mem_singleton, Prod.mk.injEq] at hm
          obtain ⟨rfl, rfl⟩ := hm
          obtain ⟨n, hn, hg⟩ := h.flying j o c hin hc
          rcases sendAwait_result hg.wf hg.idle hiThere.lawful hs (bs := greeting) (by rw [hg.server]; exact greeting_eq) with
            ⟨e, -⟩ | ⟨-, pre, w1, w2⟩
          · exact absurd e hne
          · exact ⟨n, pre, hn, w1, by rw [w2, hg.wire]⟩
  · split
    · split
      · exact h
      · exact ⟨h.sending, h.pool, h.flying, h.lost⟩
    · split <;> exact ⟨h.sending, h.pool, h.flying, h.lost⟩

theorem Parallel.Wires.run [B64] {st : Parallel} (hi : st.Ids) (h : st.Wires) (ts : List Turn) : (st.run ts).Wires := by
  induction ts generalizing st with
  | nil => exact h
  | cons t ts ih => exact ih (hi.step t) (h.step hi t)

/-! ## What is heard -/

/-- No read of zero bytes before the end. -/
def Src.NoGap (s : Src) : Prop := ∀ e ∈ s, e ≠ .chunk []

theorem pollEof_done {σ α} {dec : Decoder σ α} {fr fr' : Framed σ} {x : Item α} (h : fr.pollEof dec = (x, fr')) :
    fr'.eof = fr.eof ∧ fr'.readable = fr.readable ∧ (x = .done → fr'.buf = []) := by
  unfold Framed.pollEof at h
  split at h
  · cases h; simp
  · cases h
    refine ⟨rfl, rfl, fun hx => ?_⟩
    split at hx
    · assumption
    · cases hx
  · cases h; simp
  · cases h; simp

theorem pollRead_done {σ α} {dec : Decoder σ α} {s s' : Src} {fr fr' : Framed σ} {p : Poll α} (h : fr.pollRead dec s = (p, fr', s'))
    (hg : s.NoGap) (he : fr.eof = false) :
    s'.NoGap ∧ (fr'.eof = true → s' = [] ∧ fr'.readable = true) ∧ (p = .ready .done → fr'.buf = [] ∧ s' = []) := by
  induction s generalizing fr with
  | nil =>
    simp only [Framed.pollRead] at h
    cases hp : Framed.pollEof dec { fr with eof := true, readable := true } with
    | mk x fr₁ =>
      rw [hp] at h
      simp only [Prod.mk.injEq] at h
      obtain ⟨rfl, rfl, rfl⟩ := h
      refine ⟨hg, fun _ => ⟨rfl, (pollEof_done hp).2.1⟩, fun hx => ⟨(pollEof_done hp).2.2 ?_, rfl⟩⟩
      cases hx; rfl
  | cons e rest ih =>
    have hr : Src.NoGap rest := fun e he => hg e (List.mem_cons_of_mem _ he)
    cases e with
    | error k =>
      unfold Framed.pollRead at h
      split at h <;> (cases h; exact ⟨hr, by simp [he], by simp⟩)
    | chunk b =>
      unfold Framed.pollRead at h
      rw [if_neg (fun hb => hg _ List.mem_cons_self (by rw [hb]))] at h
      split at h
      · cases h; exact ⟨hr, by simp [he], by simp⟩
      · exact ih h hr he
      · cases h; exact ⟨hr, by simp [he], by simp⟩
      · cases h; exact ⟨hr, by simp [he], by simp⟩

theorem poll_done {σ α} {dec : Decoder σ α} {s s' : Src} {fr fr' : Framed σ} {p : Poll α} (h : fr.poll dec s = (p, fr', s'))
    (hg : s.NoGap) (he : fr.eof = true → s = [] ∧ fr.readable = true) :
    s'.NoGap ∧ (fr'.eof = true → s' = [] ∧ fr'.readable = true) ∧ (p = .ready .done → fr'.buf = [] ∧ s' = []) := by
  unfold Framed.poll at h
  split at h
  · split at h
    · next hx =>
      cases hp : fr.pollEof dec with
      | mk x fr₁ =>
        rw [hp] at h
        simp only [Prod.mk.injEq] at h
        obtain ⟨rfl, rfl, rfl⟩ := h
        refine ⟨hg, fun _ => ⟨(he hx).1, (pollEof_done hp).2.1.trans (he hx).2⟩, fun hd => ⟨(pollEof_done hp).2.2 ?_, (he hx).1⟩⟩
        cases hd; rfl
    · next hx =>
      have hx : fr.eof = false := by simpa using hx
      split at h
      · cases h; exact ⟨hg, by simp [hx], by simp⟩
      · exact pollRead_done h hg hx
      · cases h; exact ⟨hg, by simp [hx], by simp⟩
      · cases h; exact ⟨hg, by simp [hx], by simp⟩
  · next hr =>
    exact pollRead_done h hg (by cases hx : fr.eof with | false => rfl | true => exact absurd (he hx).2 hr)

/-- What was processed for a client. -/
def heardFrom (heard : List (Nat × OwnedMsg)) (id : Nat) : List OwnedMsg := (heard.filter fun p => p.1 = id).map Prod.snd

theorem heardFrom_same (heard : List (Nat × OwnedMsg)) (id : Nat) (m : OwnedMsg) : heardFrom (heard ++ [(id, m)]) id = heardFrom heard id ++ [m] := by
  simp [heardFrom]

theorem heardFrom_other (heard : List (Nat × OwnedMsg)) {id j : Nat} (m : OwnedMsg) (h : j ≠ id) : heardFrom (heard ++ [(id, m)]) j = heardFrom heard j := by
  simp [heardFrom]; exact fun e => h e.symm

/-- Reading `c` has come to `i`, and handed out `ms`. -/
structure Listened (c : AsyncClient) (ms : List OwnedMsg) (i : Inlet) : Prop where
  carries : Carries (min defaultMaxDataframe u32Max) (min defaultMaxMessage u32Max) true c.read c.stream.input ms i.read i.input
  gap : c.stream.input.NoGap → i.input.NoGap ∧ (i.read.eof = true → i.input = [] ∧ i.read.readable = true)

/-- A client as `accept` leaves it. -/
def AsyncClient.Accepted (c : AsyncClient) : Prop :=
  ∃ buf, c.read = Framed.fromParts (MsgCodec.newWithLimits .server defaultMaxDataframe defaultMaxMessage) buf

theorem Listened.start {c : AsyncClient} (hc : c.Accepted) : Listened c [] c.inlet := by
  obtain ⟨buf, hc⟩ := hc
  refine ⟨Carries.refl _ _, fun h => ⟨h, fun he => ?_⟩⟩
  have he : c.read.eof = true := he
  rw [hc] at he
  cases he

theorem Listened.poll {c : AsyncClient} (hc : c.Accepted) {ms ns : List OwnedMsg} {i : Inlet} (h : Listened c ms i) {p : Poll OwnedMsg} {fr : Framed MsgCodec}
    {s : Src} (hp : i.read.poll msgDecoder i.input = (p, fr, s)) (hx : (∃ x, p = .ready x ∧ x.clean = some ns) ∨ p = .notReady ∧ ns = []) :
    Listened c (ms ++ ns) ⟨fr, s⟩ := by
  obtain ⟨buf, hc⟩ := hc
  have hcod := h.carries.codec
  have hwf := (MsgCodec.wf_new .server defaultMaxDataframe defaultMaxMessage).1
  have e1 : i.read.codec.df = (MsgCodec.newWithLimits .server defaultMaxDataframe defaultMaxMessage).df := by rw [hcod, hc]; rfl
  have e2 : i.read.codec.maxMsg = (MsgCodec.newWithLimits .server defaultMaxDataframe defaultMaxMessage).maxMsg := by rw [hcod, hc]; rfl
  have hs := poll_sound i.input i.read (by rw [e1]; exact hwf) hp hx
  rw [e1, e2] at hs
  refine ⟨h.carries.trans hs, fun hg => ?_⟩
  obtain ⟨g1, g2⟩ := h.gap hg
  obtain ⟨q1, q2, -⟩ := poll_done hp g1 g2
  exact ⟨q1, q2⟩

structure Parallel.Ears (st : Parallel) : Prop where
  accepted : ∀ id c, (id, c) ∈ st.opened → c.Accepted
  heard : ∀ p ∈ st.heard, p.1 ≤ st.count
  waiting : ∀ id i c, (id, i) ∈ st.handing ++ st.streams → (id, c) ∈ st.opened → i = c.inlet ∧ heardFrom st.heard id = []
  current : ∀ id i c, st.current = some (id, i) → (id, c) ∈ st.opened → Listened c (heardFrom st.heard id) i
  closed : ∀ id i c, (id, i) ∈ st.closed → (id, c) ∈ st.opened → Listened c (heardFrom st.heard id) i ∧
    (c.stream.input.NoGap → i.read.buf = [] ∧ i.input = [])

theorem Parallel.Ears.new : Parallel.new.Ears :=
  ⟨by simp [Parallel.new], by simp [Parallel.new], by simp [Parallel.new], by simp [Parallel.new], by simp [Parallel.new]⟩

theorem Parallel.Ears.step [B64] {st : Parallel} (hi : st.Ids) (h : st.Ears) (t : Turn) : (st.step t).Ears := by
  have hinn := hi.inn.nodup_iff.mpr List.nodup_range'
  have hmem : ∀ id i, (id, i) ∈ st.handing ++ st.streams ++ st.current.toList ++ st.closed → id ≤ st.count := by
    intro id i hm
    have := (hi.inn.mem_iff (a := id)).mp (List.mem_map_of_mem hm)
    rw [List.mem_range'_1] at this
    omega
  unfold Parallel.step
  split
  · exact h
  split
  · exact ⟨h.accepted, h.heard, h.waiting, h.current, h.closed⟩
  · exact ⟨h.accepted, h.heard, h.waiting, h.current, h.closed⟩
  · split
    · exact h
    · next u hu =>
      split
      · next c hc =>
        split
        · exact ⟨h.accepted, h.heard, h.waiting, h.current, h.closed⟩
        · next id hid =>
          unfold counterNext at hid
          split at hid
          · next hne =>
            cases hid
            have old : ∀ {id i} {c' : AsyncClient}, (id, i) ∈ st.handing ++ st.streams ++ st.current.toList ++ st.closed →
                (id, c') ∈ st.opened ++ [(st.count + 1, c)] → (id, c') ∈ st.opened := by
              intro id o c' hm ho
              rcases List.mem_append.mp ho with ho | ho
              · exact ho
              · simp only [List.mem_singleton, Prod.mk.injEq] at ho
                have := hmem id o hm
                omega
            refine ⟨?_, fun p hm => Nat.le_succ_of_le (h.heard p hm), ?_, ?_, ?_⟩
            · intro id c' hm
              rcases List.mem_append.mp hm with hm | hm
              · exact h.accepted id c' hm
              · simp only [List.mem_singleton, Prod.mk.injEq] at hm
                rw [hm.2]
                exact ⟨_, (accept_leaves u _ c hc).2.2.2.1⟩
            · intro id i c' hm ho
              simp only at hm ho ⊢
              have hm : (id, i) ∈ st.handing ++ st.streams ∨ (id, i) = (st.count + 1, c.inlet) := by
                simp only [List.mem_append, List.mem_singleton] at hm ⊢
                grind
              rcases hm with hm | e
              · exact h.waiting id i c' hm (old (i := i) (by simp only [List.mem_append] at hm ⊢; grind) ho)
              · cases e
                have e : c' = c := by
                  rcases List.mem_append.mp ho with ho | ho
                  · have := hi.opened_le ho; omega
                  · simp only [List.mem_singleton, Prod.mk.injEq, true_and] at ho; exact ho
                subst e
                refine ⟨rfl, ?_⟩
                unfold heardFrom
                rw [List.filter_eq_nil_iff.mpr, List.map_nil]
                intro p hp
                have := h.heard p hp
                simp only [decide_eq_true_eq]
                omega
            · intro id i c' hm ho
              exact h.current id i c' hm (old (i := i) (by have hm : st.current = some (id, i) := hm; simp [hm]) ho)
            · intro id i c' hm ho
              exact h.closed id i c' hm (old (i := i) (by simp [show (id, i) ∈ st.closed from hm]) ho)
          · cases hid
      · exact ⟨h.accepted, h.heard, h.waiting, h.current, h.closed⟩
  · split
    · exact h
    · next x hx =>
      refine ⟨h.accepted, h.heard, ?_, h.current, h.closed⟩
      intro id i c hm ho
      refine h.waiting id i c ?_ ho
      have hp := (perm_eraseIdx hx).mem_iff (a := (id, i))
      simp only [List.mem_append, List.mem_singleton] at hm ⊢
      rw [hp, List.mem_cons]
      grind
  · exact ⟨h.accepted, h.heard, h.waiting, h.current, h.closed⟩
  · split
    · exact h
    · exact ⟨h.accepted, h.heard, h.waiting, h.current, h.closed⟩
  · split
    · exact h
    · split <;> exact ⟨h.accepted, h.heard, h.waiting, h.current, h.closed⟩
  · split
    · exact h
    · split <;> exact ⟨h.accepted, h.heard, h.waiting, h.current, h.closed⟩
  · split
    · next hcur =>
      split
      · exact h
      · next x rest hs =>
        refine ⟨h.accepted, h.heard, ?_, ?_, h.closed⟩
        · intro id i c hm ho
          refine h.waiting id i c ?_ ho
          rw [hs]
          simp only [List.mem_append, List.mem_cons] at hm ⊢
          grind
        · intro id i c hm ho
          simp only [Option.some.injEq] at hm
          obtain ⟨rfl, e⟩ := h.waiting id i c (by rw [hs, hm]; simp) ho
          show Listened c (heardFrom st.heard id) c.inlet
          rw [e]
          exact .start (h.accepted id c ho)
    · next id inl hcur =>
      rw [hcur] at hinn
      simp only [Option.toList, List.map_append, List.map_cons, List.map_nil, List.append_assoc] at hinn
      rw [← List.append_assoc, List.nodup_append] at hinn
      have hne1 : ∀ {j i}, (j, i) ∈ st.handing ++ st.streams → j ≠ id := by
        intro j i hm e
        subst e
        exact hinn.2.2 j (by rw [← List.map_append]; exact List.mem_map_of_mem hm) j (by simp) rfl
      have hne2 : ∀ {j i}, (j, i) ∈ st.closed → j ≠ id := by
        intro j i hm e
        subst e
        have := hinn.2.1
        simp only [List.singleton_append, List.nodup_cons] at this
        exact this.1 (List.mem_map_of_mem hm)
      split
      · next fr s hp =>
        refine ⟨h.accepted, h.heard, h.waiting, ?_, h.closed⟩
        intro j i c hm ho
        simp only [Option.some.injEq, Prod.mk.injEq] at hm
        obtain ⟨rfl, rfl⟩ := hm
        have := (h.current _ _ c hcur ho).poll (h.accepted _ c ho) hp (.inr ⟨rfl, rfl⟩)
        rwa [List.append_nil] at this
      · next m fr s hp =>
        refine ⟨h.accepted, ?_, ?_, ?_, ?_⟩
        · intro p hm
          rcases List.mem_append.mp hm with hm | hm
          · exact h.heard p hm
          · simp only [List.mem_singleton] at hm
            subst hm
            exact hmem id inl (by simp [hcur])
        · intro j i c hm ho
          obtain ⟨e1, e2⟩ := h.waiting j i c hm ho
          exact ⟨e1, by show heardFrom (st.heard ++ [(id, m)]) j = []; rw [heardFrom_other _ _ (hne1 hm)]; exact e2⟩
        · intro j i c hm ho
          simp only [Option.some.injEq, Prod.mk.injEq] at hm
          obtain ⟨rfl, rfl⟩ := hm
          have := (h.current _ _ c hcur ho).poll (h.accepted _ c ho) hp (.inl ⟨_, rfl, rfl⟩)
          show Listened c (heardFrom (st.heard ++ [(id, m)]) id) _
          rw [heardFrom_same]
          exact this
        · intro j i c hm ho
          show Listened c (heardFrom (st.heard ++ [(id, m)]) j) i ∧ _
          rw [heardFrom_other _ _ (hne2 hm)]
          exact h.closed j i c hm ho
      · next fr s hp =>
        refine ⟨h.accepted, h.heard, h.waiting, ?_, ?_⟩
        · intro j i c hm; cases hm
        · intro j i c hm ho
          rcases List.mem_append.mp hm with hm | hm
          · exact h.closed j i c hm ho
          · simp only [List.mem_singleton, Prod.mk.injEq] at hm
            obtain ⟨rfl, rfl⟩ := hm
            have h0 := h.current _ _ c hcur ho
            have := h0.poll (h.accepted _ c ho) hp (.inl ⟨_, rfl, rfl⟩)
            rw [List.append_nil] at this
            refine ⟨this, fun hg => ?_⟩
            obtain ⟨g1, g2⟩ := h0.gap hg
            exact (poll_done hp g1 g2).2.2 rfl
      · exact ⟨h.accepted, h.heard, h.waiting, h.current, h.closed⟩

theorem Parallel.Ears.run [B64] {st : Parallel} (hi : st.Ids) (h : st.Ears) (ts : List Turn) : (st.run ts).Ears := by
  induction ts generalizing st with
  | nil => exact h
  | cons t ts ih => exact ih (hi.step t) (h.step hi t)

/-! ## Where clients come from -/

structure Parallel.From [B64] (P : AsyncUpgrade → Prop) (st : Parallel) : Prop where
  opening : ∀ u ∈ st.opening, P u
  opened : ∀ id c, (id, c) ∈ st.opened → ∃ u extra, P u ∧ u.accept extra = .client c

theorem Parallel.From.step [B64] {P : AsyncUpgrade → Prop} {st : Parallel} (h : st.From P) (t : Turn) (ht : ∀ u, t = .incoming (.ok u) → P u) :
    (st.step t).From P := by
  have he : ∀ i u, u ∈ st.opening.eraseIdx i → P u := fun i u hu => h.opening u (List.mem_of_mem_eraseIdx hu)
  unfold Parallel.step
  split
  · exact h
  split
  · exact ⟨h.opening, h.opened⟩
  · next u =>
    refine ⟨fun v hv => ?_, h.opened⟩
    rcases List.mem_append.mp hv with hv | hv
    · exact h.opening v hv
    · simp only [List.mem_singleton] at hv
      subst hv
      exact ht v rfl
  · split
    · exact h
    · next u hu =>
      split
      · next c hc =>
        split
        · exact ⟨he _, h.opened⟩
        · refine ⟨he _, ?_⟩
          intro id c' hm
          rcases List.mem_append.mp hm with hm | hm
          · exact h.opened id c' hm
          · simp only [List.mem_singleton, Prod.mk.injEq] at hm
            rw [hm.2]
            exact ⟨u, _, h.opening u (List.mem_of_getElem? hu), hc⟩
      · exact ⟨he _, h.opened⟩
  · split
    · exact h
    · exact ⟨h.opening, h.opened⟩
  · exact ⟨h.opening, h.opened⟩
  · split
    · exact h
    · exact ⟨h.opening, h.opened⟩
  · split
    · exact h
    · split <;> exact ⟨h.opening, h.opened⟩
  · split
    · exact h
    · split <;> exact ⟨h.opening, h.opened⟩
  · split
    · split
      · exact h
      · exact ⟨h.opening, h.opened⟩
    · split <;> exact ⟨h.opening, h.opened⟩

theorem Parallel.From.run [B64] {P : AsyncUpgrade → Prop} {st : Parallel} (h : st.From P) (ts : List Turn) (ht : ∀ u, .incoming (.ok u) ∈ ts → P u) :
    (st.run ts).From P := by
  induction ts generalizing st with
  | nil => exact h
  | cons t ts ih =>
    exact ih (h.step t fun u e => ht u (by rw [← e]; exact List.mem_cons_self)) fun u hu => ht u (List.mem_cons_of_mem _ hu)

/-! ## Requests -/

/-- Every request is for a client in the pool, and there is one at most for each. -/
structure Parallel.Calm (st : Parallel) : Prop where
  nodup : (st.asking ++ st.asked).Nodup
  pool : ∀ id ∈ st.asking ++ st.asked, id ∈ st.pool.map Prod.fst
  alive : st.over ≠ some .invalidId

theorem Parallel.Calm.step [B64] {st : Parallel} (hi : st.Ids) (h : st.Calm) (t : Turn) (ht : t = .tick → st.asking = [] ∧ st.asked = []) :
    (st.step t).Calm := by
  have ins : ∀ {id : Nat} {a : Outlet} {j : Nat}, j ∈ st.pool.map Prod.fst → j ∈ (Table.insert st.pool id a).map Prod.fst := by
    intro id a j hj
    obtain ⟨p, hp, rfl⟩ := List.mem_map.mp hj
    by_cases e : p.1 = id
    · rw [e]; exact List.mem_map_of_mem (Table.mem_insert.mpr (.inl rfl))
    · exact List.mem_map_of_mem (Table.mem_insert.mpr (.inr ⟨hp, e⟩))
  unfold Parallel.step
  split
  · exact h
  next halive =>
  have hov : st.over = none := by simpa using halive
  split
  · exact ⟨h.nodup, h.pool, by simp⟩
  · exact ⟨h.nodup, h.pool, h.alive⟩
  · split
    · exact h
    · split
      · split
        · exact ⟨h.nodup, h.pool, h.alive⟩
        · exact ⟨h.nodup, fun j hj => ins (h.pool j hj), h.alive⟩
      · exact ⟨h.nodup, h.pool, h.alive⟩
  · split
    · exact h
    · exact ⟨h.nodup, h.pool, h.alive⟩
  · obtain ⟨e1, e2⟩ := ht rfl
    refine ⟨?_, ?_, h.alive⟩
    · simp only [e1, e2, List.nil_append, List.append_nil]
      exact hi.pool_nodup
    · intro id hm
      simpa only [e1, e2, List.nil_append, List.append_nil] using hm
  · split
    · exact h
    · next id hid =>
      have hp : ∀ i, st.asking[i]? = some id → (st.asking.eraseIdx i ++ (st.asked ++ [id])).Perm (st.asking ++ st.asked) := by
        intro i hid
        refine List.Perm.trans ?_ (List.Perm.append_right _ (perm_eraseIdx hid)).symm
        rw [← List.append_assoc]
        exact (List.perm_append_singleton _ _)
      exact ⟨(hp _ hid).nodup_iff.mpr h.nodup, fun j hj => h.pool j ((hp _ hid).mem_iff.mp hj), h.alive⟩
  · split
    · exact h
    · next id rest hq =>
      have hn := h.nodup
      have hp := h.pool
      rw [hq] at hn hp
      split
      · next hl =>
        exfalso
        obtain ⟨q, hq1, hq2⟩ := List.mem_map.mp (hp id (by simp))
        have := List.lookup_eq_none_iff.mp hl q hq1
        rw [hq2] at this
        simp at this
      · have hn' := (List.perm_middle.nodup_iff.mp hn)
        simp only [List.nodup_cons] at hn'
        refine ⟨hn'.2, ?_, h.alive⟩
        intro j hj
        have hj' : j ∈ st.asking ++ rest := hj
        obtain ⟨q, hq1, hq2⟩ := List.mem_map.mp (hp j (by simp only [List.mem_append, List.mem_cons] at hj' ⊢; grind))
        rw [← hq2]
        refine List.mem_map_of_mem (Table.mem_remove.mpr ⟨hq1, fun e => hn'.1 ?_⟩)
        rw [← e, hq2]
        exact hj'
  · split
    · exact h
    · split
      · exact ⟨h.nodup, fun j hj => ins (h.pool j hj), h.alive⟩
      · exact ⟨h.nodup, h.pool, h.alive⟩
  · split
    · split
      · exact h
      · exact ⟨h.nodup, h.pool, h.alive⟩
    · split
      · exact ⟨h.nodup, h.pool, h.alive⟩
      · exact ⟨h.nodup, h.pool, h.alive⟩
      · exact ⟨h.nodup, h.pool, h.alive⟩
      · exact ⟨h.nodup, h.pool, by simp⟩

/-- The timer never fires while requests of an earlier firing are waiting to be taken. -/
def Parallel.KeepsUp [B64] : Parallel → List Turn → Prop
  | _, [] => True
  | st, t :: ts => (t = .tick → st.asking = [] ∧ st.asked = []) ∧ Parallel.KeepsUp (st.step t) ts

theorem Parallel.Calm.run [B64] {st : Parallel} (hi : st.Ids) (h : st.Calm) (ts : List Turn) (hk : st.KeepsUp ts) : (st.run ts).Calm := by
  induction ts generalizing st with
  | nil => exact h
  | cons t ts ih => exact ih (hi.step t) (h.step hi t hk.1) hk.2

/-! ## Streams are read one after another -/

theorem step_over [B64] {st : Parallel} (h : st.over ≠ none) (t : Turn) : st.step t = st := by
  unfold Parallel.step
  rw [if_pos h]

/-- A stream that has ended stays ended; while one is being read nothing else is heard. -/
theorem step_current [B64] {st : Parallel} (t : Turn) :
    (∀ p ∈ st.closed, p ∈ (st.step t).closed) ∧
    ∀ id i, st.current = some (id, i) → (∃ i', (st.step t).current = some (id, i') ∧ ∃ ms : List OwnedMsg, (st.step t).heard = st.heard ++ ms.map (Prod.mk id)) ∨
      ∃ i', (id, i') ∈ (st.step t).closed := by
  have keep : (∀ id i, st.current = some (id, i) → (∃ i', st.current = some (id, i') ∧ ∃ ms, st.heard = st.heard ++ List.map (Prod.mk id) ms) ∨
      ∃ i', (id, i') ∈ st.closed) := fun id i h => .inl ⟨i, h, [], by simp⟩
  unfold Parallel.step
  split
  · exact ⟨fun _ h => h, keep⟩
  split
  · exact ⟨fun _ h => h, keep⟩
  · exact ⟨fun _ h => h, keep⟩
  · split
    · exact ⟨fun _ h => h, keep⟩
    · split
      · split <;> exact ⟨fun _ h => h, keep⟩
      · exact ⟨fun _ h => h, keep⟩
  · split <;> exact ⟨fun _ h => h, keep⟩
  · exact ⟨fun _ h => h, keep⟩
  · split <;> exact ⟨fun _ h => h, keep⟩
  · split
    · exact ⟨fun _ h => h, keep⟩
    · split <;> exact ⟨fun _ h => h, keep⟩
  · split
    · exact ⟨fun _ h => h, keep⟩
    · split <;> exact ⟨fun _ h => h, keep⟩
  · split
    · next hc =>
      split
      · exact ⟨fun _ h => h, keep⟩
      · exact ⟨fun _ h => h, fun id i h => by rw [hc] at h; cases h⟩
    · next id inl hc =>
      split
      · refine ⟨fun _ h => h, fun j i h => ?_⟩
        rw [hc] at h; cases h
        exact .inl ⟨_, rfl, [], by simp⟩
      · next m _ _ _ =>
        refine ⟨fun _ h => h, fun j i h => ?_⟩
        rw [hc] at h; cases h
        exact .inl ⟨_, rfl, [m], by simp⟩
      · refine ⟨fun _ h => List.mem_append_left _ h, fun j i h => ?_⟩
        rw [hc] at h; cases h
        exact .inr ⟨_, List.mem_append_right _ List.mem_cons_self⟩
      · refine ⟨fun _ h => h, fun j i h => ?_⟩
        exact .inl ⟨_, h, [], by simp⟩

theorem run_closed [B64] {st : Parallel} (ts : List Turn) : ∀ p ∈ st.closed, p ∈ (st.run ts).closed := by
  induction ts generalizing st with
  | nil => exact fun _ h => h
  | cons t ts ih => exact fun p h => ih p ((step_current t).1 p h)

theorem run_current [B64] {st : Parallel} (hi : st.Ids) (ts : List Turn) (id : Nat) (i i' : Inlet) (h : st.current = some (id, i))
    (h' : (st.run ts).current = some (id, i')) : ∃ ms : List OwnedMsg, (st.run ts).heard = st.heard ++ ms.map (Prod.mk id) := by
  induction ts generalizing st i with
  | nil => exact ⟨[], by simp [Parallel.run]⟩
  | cons t ts ih =>
    rcases (step_current t).2 id i h with ⟨i₁, h1, ms, h2⟩ | ⟨i₁, h1⟩
    · obtain ⟨ns, h3⟩ := ih (hi.step t) i₁ h1 h'
      refine ⟨ms ++ ns, ?_⟩
      show ((st.step t).run ts).heard = _
      rw [h3, h2, List.map_append, List.append_assoc]
    · exfalso
      have h1 := run_closed ts _ h1
      have hn := ((hi.step t).run ts).inn.nodup_iff.mpr List.nodup_range'
      have h' : ((st.step t).run ts).current = some (id, i') := h'
      rw [h'] at hn
      simp only [Option.toList, List.map_append, List.map_cons, List.map_nil, List.nodup_append] at hn
      exact hn.2.2 id (by simp) id (List.mem_map_of_mem h1) rfl

/-! ## Why it ends -/

/-- Reasons for having ended: `P` if because of a handshake, a bad stream if because of a message. -/
structure Parallel.Cause (P : Prop) (st : Parallel) : Prop where
  handshake : st.over = some .badHandshake → P
  message : st.over = some .badMessage → ∃ id i x fr s, st.current = some (id, i) ∧ i.read.poll msgDecoder i.input = (.ready x, fr, s) ∧
    (∀ m, x ≠ .item m) ∧ x ≠ .done

theorem Parallel.Cause.step [B64] {P : Prop} {st : Parallel} (h : st.Cause P) (t : Turn) (ht : ∀ e, t = .incoming (.error e) → P) : (st.step t).Cause P := by
  unfold Parallel.step
  split
  · exact h
  next halive =>
  have hov : st.over = none := by simpa using halive
  have none_ok : ∀ st' : Parallel, st'.over = none → st'.Cause P := fun st' h => ⟨by rw [h]; simp, by rw [h]; simp⟩
  split
  · next e => exact ⟨fun _ => ht e rfl, by simp⟩
  · exact none_ok _ hov
  · split
    · exact h
    · split
      · split <;> exact none_ok _ hov
      · exact none_ok _ hov
  · split
    · exact h
    · exact none_ok _ hov
  · exact none_ok _ hov
  · split
    · exact h
    · exact none_ok _ hov
  · split
    · exact h
    · split
      · exact ⟨by simp, by simp⟩
      · exact none_ok _ hov
  · split
    · exact h
    · split <;> exact none_ok _ hov
  · split
    · split
      · exact h
      · exact none_ok _ hov
    · next id inl hc =>
      split
      · exact none_ok _ hov
      · exact none_ok _ hov
      · exact none_ok _ hov
      · next x fr s h1 h2 hp =>
        refine ⟨by simp, fun _ => ⟨id, inl, x, fr, s, hc, hp, ?_, ?_⟩⟩
        · intro m e; exact h1 m e
        · exact h2

theorem Parallel.Cause.run [B64] {P : Prop} {st : Parallel} (h : st.Cause P) (ts : List Turn) (ht : ∀ e, .incoming (.error e) ∈ ts → P) :
    (st.run ts).Cause P := by
  induction ts generalizing st with
  | nil => exact h
  | cons t ts ih =>
    exact ih (h.step t fun e q => ht e (by rw [← q]; exact List.mem_cons_self)) fun e he => ht e (List.mem_cons_of_mem _ he)

/-! ## A round -/

theorem run_app [B64] (st : Parallel) (a b : List Turn) : st.run (a ++ b) = (st.run a).run b := by
  simp [Parallel.run, List.foldl_append]

theorem run_asks [B64] (l : List Nat) (st : Parallel) (ho : st.over = none) (h : st.asking = l) :
    st.run (List.replicate l.length (.ask 0)) = { st with asking := [], asked := st.asked ++ l } := by
  induction l generalizing st with
  | nil =>
    show st = _
    cases st; simp_all
  | cons id l ih =>
    have e : st.step (.ask 0) = { st with asking := l, asked := st.asked ++ [id] } := by
      unfold Parallel.step
      rw [if_neg (by simp [ho])]
      simp [h]
    rw [List.length_cons, List.replicate_succ]
    show (st.step (.ask 0)).run _ = _
    rw [e, ih { st with asking := l, asked := st.asked ++ [id] } ho rfl]
    simp

theorem run_sends [B64] (l : List (Nat × Outlet)) (st : Parallel) (ho : st.over = none) (hn : (st.pool.map Prod.fst).Nodup) (h : st.pool = l)
    (ha : st.asked = l.map Prod.fst) :
    st.run (List.replicate l.length .send) = { st with asked := [], pool := [], flying := st.flying ++ l, sending := st.sending ++ l.map Prod.fst } := by
  induction l generalizing st with
  | nil =>
    show st = _
    cases st; simp_all
  | cons p l ih =>
    obtain ⟨id, o⟩ := p
    rw [h] at hn
    simp only [List.map_cons, List.nodup_cons] at hn
    have hr : Table.remove ((id, o) :: l) id = l := by
      unfold Table.remove
      rw [List.filter_cons_of_neg (by simp)]
      refine List.filter_eq_self.mpr fun p hp => ?_
      simp only [ne_eq, decide_eq_true_eq]
      exact fun e => hn.1 (e ▸ List.mem_map_of_mem hp)
    have e : st.step .send = { st with asked := l.map Prod.fst, pool := l, flying := st.flying ++ [(id, o)], sending := st.sending ++ [id] } := by
      unfold Parallel.step
      rw [if_neg (by simp [ho])]
      simp [h, ha, List.lookup, hr]
    rw [List.length_cons, List.replicate_succ]
    show (st.step .send).run _ = _
    rw [e, ih { st with asked := l.map Prod.fst, pool := l, flying := st.flying ++ [(id, o)], sending := st.sending ++ [id] } ho hn.2 rfl rfl]
    simp

theorem run_sents [B64] (l : List (Nat × Outlet)) (key : Key4) (extra : Nat) (st : Parallel) (ho : st.over = none) (h : st.flying = l)
    (hn : (st.pool.map Prod.fst ++ l.map Prod.fst).Nodup)
    (hl : ∀ p ∈ l, p.2.output.Patient ∧ p.2.write.buf.WF ∧ p.2.write.buf.data = []) (hp : ∀ p ∈ st.pool, p.2.output.Patient) :
    ∃ pool, st.run (List.replicate l.length (.sent 0 key extra)) = { st with flying := [], pool := pool } ∧
      (pool.map Prod.fst).Perm (st.pool.map Prod.fst ++ l.map Prod.fst) ∧ ∀ p ∈ pool, p.2.output.Patient := by
  induction l generalizing st with
  | nil => exact ⟨st.pool, (by show st = _; cases st; simp_all), by simp, hp⟩
  | cons p l ih =>
    obtain ⟨id, o⟩ := p
    obtain ⟨h1, h2, h3⟩ := hl (id, o) List.mem_cons_self
    obtain ⟨bs, fw, w, -, e1, -, e3, -⟩ := sendAwait_patient (m := hiThere) o.write o.output h1 h2 h3 (lim := 2 ^ 62) ⟨isUtf8_ascii (by decide), by decide⟩ key extra
    have hid : id ∉ st.pool.map Prod.fst := by
      simp only [List.map_cons, List.nodup_append] at hn
      exact fun hm => hn.2.2 id hm id List.mem_cons_self rfl
    have e : st.step (.sent 0 key extra) = { st with flying := l, pool := (id, ⟨fw, w⟩) :: st.pool } := by
      unfold Parallel.step
      rw [if_neg (by simp [ho])]
      simp [h, e1, Table.insert_new _ hid]
    obtain ⟨pool, i1, i2, i3⟩ := ih { st with flying := l, pool := (id, ⟨fw, w⟩) :: st.pool } ho rfl
      (by simp only [List.map_cons, List.cons_append]; exact (List.perm_middle.nodup_iff.mp hn)) (fun p hm => hl p (List.mem_cons_of_mem _ hm)) (by
        intro p hm
        rcases List.mem_cons.mp hm with rfl | hm
        · exact e3
        · exact hp p hm)
    refine ⟨pool, ?_, ?_, i3⟩
    · rw [List.length_cons, List.replicate_succ]
      show (st.step (.sent 0 key extra)).run _ = _
      rw [e, i1]
    · refine i2.trans ?_
      simp only [List.map_cons, List.cons_append]
      exact List.perm_middle.symm

end WS
