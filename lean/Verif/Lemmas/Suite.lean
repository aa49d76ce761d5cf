import Verif.Model.Suite
import Verif.Spec.Suite
import Verif.Props.Cases
import Verif.Props.Target
import Verif.Lemmas.Chat
import Verif.Lemmas.Parallel
import Verif.Props.Panic
/-! The programs that run the test suite. -/

namespace WS
open Spec

/-- The errand of connection `i` in a run over `n` cases. -/
def errandAt (n i : Nat) : Errand := if i = 0 then .count else if i ≤ n then .case i else .reports

theorem plan_get (n i : Nat) : (plan n)[i]? = if i < n + 2 then some (errandAt n i) else none := by
  unfold plan errandAt
  cases i with
  | zero => simp
  | succ i =>
    simp only [List.cons_append, List.getElem?_cons_succ]
    by_cases h : i < n
    · rw [List.getElem?_append_left (by simpa using h)]
      simp [h, show i < n + 1 by omega, show i + 1 ≤ n by omega]
    · rw [List.getElem?_append_right (by simpa using h)]
      simp only [List.length_map, List.length_range]
      by_cases h2 : i = n
      · subst h2; simp
      · have : ¬ i + 1 < n + 2 := by omega
        rw [if_neg this]
        apply List.getElem?_eq_none
        simp; omega

theorem plan_length (n : Nat) : (plan n).length = n + 2 := by simp [plan]

/-- One connection of the blocking program on its own. -/
def errandVisit [B64] (p : ResParser) (t : Trip) : Errand → Ending × Visit
  | .count => match countVisit p t with
    | (some _, v) => (.returned, v)
    | (none, v) => (.panicked, v)
  | .case n => caseVisit p t n
  | .reports => reportsVisit p t

/-- One connection of the async program on its own. -/
def asyncErrandVisit [B64] (p : ResParser) (t : Trip) : Errand → Ending × Visit
  | .count => match asyncCountVisit p t with
    | (some _, v) => (.returned, v)
    | (none, v) => (.panicked, v)
  | .case n => asyncCaseVisit p t n
  | .reports => asyncReportsVisit p t

theorem reportsVisit_end [B64] (p : ResParser) (t : Trip) :
    (reportsVisit p t).1 = .returned ∨ (reportsVisit p t).1 = .panicked := by
  have hl : ∀ keys r s w, (reportsLoop keys r s w).1 = .returned ∨ (reportsLoop keys r s w).1 = .panicked := by
    intro keys r s w
    fun_induction reportsLoop keys r s w <;> simp_all
  unfold reportsVisit
  split
  · split
    · exact hl _ _ _ _
    · exact .inr rfl
  · exact .inl rfl
  · exact .inr rfl

/-- The rest of the program from case `id` on. -/
theorem runCases_spec [B64] (p : ResParser) (world : Nat → Trip) (n id : Nat) (hn : n < usizeMax) (h0 : 0 < id) (hid : id ≤ n + 1) :
    let o := runCases p world n id
    0 < o.2.length ∧ o.2.length ≤ n + 2 - id ∧
    (∀ i v, o.2[i]? = some v → v = (errandVisit p (world (id + i)) (errandAt n (id + i))).2 ∧
      (i + 1 < o.2.length → (errandVisit p (world (id + i)) (errandAt n (id + i))).1 = .returned)) ∧
    (o.1 = .returned ∧ o.2.length = n + 2 - id ∧ (errandVisit p (world (n + 1)) (errandAt n (n + 1))).1 = .returned ∨
     o.1 = .panicked ∧ (errandVisit p (world (id + (o.2.length - 1))) (errandAt n (id + (o.2.length - 1)))).1 ≠ .returned) := by
  simp only
  fun_induction runCases p world n id with
  | case1 hle => exact absurd hn (by omega)
  | case2 id hle hu v hv fin vs hr ih =>
    have hi := ih (by omega) (by omega)
    rw [hr] at hi
    simp only at hi
    obtain ⟨h1, h2, h3, h4⟩ := hi
    have he : errandAt n id = .case id := by unfold errandAt; rw [if_neg (by omega), if_pos hle]
    have hv' : errandVisit p (world id) (errandAt n id) = (.returned, v) := by rw [he]; exact hv
    refine ⟨by simp, by simp at h2 ⊢; omega, ?_, ?_⟩
    · intro i u hu'
      cases i with
      | zero =>
        simp only [List.getElem?_cons_zero, Option.some.injEq] at hu'
        subst hu'
        simp only [Nat.add_zero, hv']
        exact ⟨trivial, fun _ => trivial⟩
      | succ i =>
        simp only [List.getElem?_cons_succ] at hu'
        have := h3 i u hu'
        rw [show id + 1 + i = id + (i + 1) by omega] at this
        refine ⟨this.1, fun hl => this.2 ?_⟩
        simp only [List.length_cons] at hl
        omega
    · rcases h4 with ⟨g1, g2, g3⟩ | ⟨g1, g2⟩
      · refine .inl ⟨g1, ?_, g3⟩
        simp only [List.length_cons]; omega
      · refine .inr ⟨g1, ?_⟩
        have e : id + 1 + (vs.length - 1) = id + ((v :: vs).length - 1) := by simp at h1 ⊢; omega
        rw [← e]
        exact g2
  | case3 id hle hu fin v hne hv =>
    have he : errandAt n id = .case id := by unfold errandAt; rw [if_neg (by omega), if_pos hle]
    have hv' : errandVisit p (world id) (errandAt n id) = (fin, v) := by rw [he]; exact hv
    refine ⟨by simp, by simp; omega, ?_, .inr ⟨rfl, ?_⟩⟩
    · intro i u hu'
      cases i with
      | zero =>
        simp only [List.getElem?_cons_zero, Option.some.injEq] at hu'
        subst hu'
        simp [hv']
      | succ i => simp at hu'
    · simp only [List.length_cons, List.length_nil, Nat.zero_add, Nat.sub_self, Nat.add_zero, hv']
      exact hne
  | case4 id hle fin v hv =>
    have hid' : id = n + 1 := by omega
    subst hid'
    have he : errandAt n (n + 1) = .reports := by unfold errandAt; rw [if_neg (by omega), if_neg (by omega)]
    have hv' : errandVisit p (world (n + 1)) (errandAt n (n + 1)) = (fin, v) := by rw [he]; exact hv
    refine ⟨by simp, by simp, ?_, ?_⟩
    · intro i u hu'
      cases i with
      | zero =>
        simp only [List.getElem?_cons_zero, Option.some.injEq] at hu'
        subst hu'
        simp [hv']
      | succ i => simp at hu'
    · have := reportsVisit_end p (world (n + 1))
      rw [hv] at this
      simp only at this
      rcases this with rfl | rfl
      · exact .inl ⟨rfl, by simp, by rw [hv']⟩
      · refine .inr ⟨rfl, ?_⟩
        simp [hv']

theorem runCases_overflow [B64] (p : ResParser) (world : Nat → Trip) (id : Nat) (h : id ≤ usizeMax) :
    (runCases p world usizeMax id).1 = .panicked := by
  fun_induction runCases p world usizeMax id with
  | case1 hle => rfl
  | case2 id hle hu v hv fin vs hr ih =>
    have := ih (by omega)
    rw [hr] at this
    exact this
  | case3 => rfl
  | case4 id hle => omega

/-! ### Async -/

/-- Over any transport, the loop of the async client does not panic. -/
theorem asyncCase_no_panic (keys : Nat → Key4) (extra : Nat) (fr : Framed MsgCodec) (s : Src) (fw : FramedWrite) (w : Sink)
    (hf : FitAsync fr.codec) (hb : fw.buf.WF) (he : fw.buf.data = []) : (asyncCaseLoop keys extra fr s fw w).1 ≠ .panicked := by
  have keep : ∀ {m : OwnedMsg} {fw fw' : FramedWrite} {w w' : Sink} {r : SendRes} {key : Key4}, m.spec.Sendable isizeMax → fw.buf.WF → fw.buf.data = [] →
      fw.sendAwait m.view key extra w = (r, fw', w') → (r = .ready ∧ fw'.buf.WF ∧ fw'.buf.data = []) ∨ ∃ e, r = .err e := by
    intro m fw fw' w w' r key hm hb he hs
    obtain ⟨bs, -, h⟩ := await_any w hb he hm key extra
    rw [hs] at h
    rcases h with ⟨h, -⟩ | ⟨e, _, h, -⟩
    · simp only at h
      obtain ⟨bs, hbs⟩ := encode_sendable hm (if fw.isServer then none else some key)
      rcases sendAwait_result hb he m.lawful hs hbs with h' | h'
      · exact .inl ⟨h, h'.2.2.1, h'.2.2.2.1⟩
      · exact absurd h h'.1
    · exact .inr ⟨e, h⟩
  have good : ∀ {fr fr' : Framed MsgCodec} {s s' : Src} {m : OwnedMsg}, FitAsync fr.codec → fr.next msgDecoder s = (.item m, fr', s') →
      m.spec.Sendable isizeMax ∧ FitAsync fr'.codec := by
    intro fr fr' s s' m hf h
    have := (next_good s fr hf).2 m (by rw [h])
    rw [h] at this
    exact this
  have fails : ∀ {m : OwnedMsg} {fw fw' : FramedWrite} {w w' : Sink} {r : SendRes} {key : Key4}, m.spec.Sendable isizeMax → fw.buf.WF → fw.buf.data = [] →
      fw.sendAwait m.view key extra w = (r, fw', w') → (r = .ready → False) → (∀ e, r = .err e → False) → False := by
    intro m fw fw' w w' r key hm hb he hs h1 h2
    rcases keep hm hb he hs with h | ⟨e, h⟩
    · exact h1 h.1
    · exact h2 e h
  fun_induction asyncCaseLoop keys extra fr s fw w with
  | case1 keys fr s fw w fr' s' t h fw' w' hs _ ih =>
    have g := good hf h
    rcases keep g.1 hb he hs with k | ⟨e, k⟩
    · exact ih g.2 k.2.1 k.2.2
    · cases k
  | case4 keys fr s fw w fr' s' t h fw' w' hs _ ih =>
    have g := good hf h
    rcases keep g.1 hb he hs with k | ⟨e, k⟩
    · exact ih g.2 k.2.1 k.2.2
    · cases k
  | case7 keys fr s fw w fr' s' t h fw' w' hs _ ih =>
    have g := good hf h
    rcases keep (m := .pong t) g.1 hb he hs with k | ⟨e, k⟩
    · exact ih g.2 k.2.1 k.2.2
    · cases k
  | case3 keys fr s fw w fr' s' t h r fw' w' h1 h2 hs => exact (fails (good hf h).1 hb he hs h1 h2).elim
  | case6 keys fr s fw w fr' s' t h r fw' w' h1 h2 hs => exact (fails (good hf h).1 hb he hs h1 h2).elim
  | case9 keys fr s fw w fr' s' t h r fw' w' h1 h2 hs => exact (fails (m := .pong t) (good hf h).1 hb he hs h1 h2).elim
  | case12 keys fr s fw w fr' s' t h r fw' w' h1 h2 hs => exact (fails (sendable_close _) hb he hs h1 h2).elim
  | case17 keys fr s fw w fr' s' t h r fw' w' h1 h2 hs => exact (fails (sendable_close _) hb he hs h1 h2).elim
  | case13 keys fr s fw w fr' s' t h _ ih => exact ih (good hf h).2 hb he
  | case18 keys fr s fw w why fr' s' h => exact absurd (by rw [h]) ((next_good s fr hf).1 why)
  | _ => intro hq; cases hq

/-- Connecting does not panic: only the library's own headers are formatted. -/
theorem asyncConnect_no_panic [B64] (p : ResParser) (t : Trip) (url : Url) (why : String) : (t.asyncConnect p url).1 ≠ .panic why := by
  unfold Trip.asyncConnect Builder.asyncConnect
  split
  · intro h; cases h
  · exact C69_async_connect_partial p t.fresh t.extra _ url [] (by simp) why

theorem asyncConnect_client_of [B64] (p : ResParser) (t : Trip) (url : Url) (c : AsyncClient) (calls : List NetCall)
    (h : t.asyncConnect p url = (.client c, calls)) :
    ∃ d, ((Builder.init url).run []).asyncConnectOn p t.fresh t.extra d = .client c := by
  unfold Trip.asyncConnect Builder.asyncConnect at h
  split at h
  · cases h
  · next d _ _ => exact ⟨d, congrArg Prod.fst h⟩

theorem asyncConnectOn_emptied [B64] (p : ResParser) (fresh : WsKey) (extra : Nat) (b : Builder) (d : Duplex) (c : AsyncClient)
    (h : b.asyncConnectOn p fresh extra d = .client c) : c.write.buf.data = [] := by
  replace h := asyncConnect_client h
  unfold Builder.asyncConnectText at h
  simp only at h
  split at h
  · next fw w hs =>
    rcases httpSend_spec (HttpHead.fmt reqLine (⟨(b.buildRequest fresh).2.version, ⟨.get, (b.buildRequest fresh).1⟩, (b.buildRequest fresh).2.headers⟩ : Request)) extra d.output with
      ⟨-, -, k⟩ | ⟨e, _, k, -⟩
    · rw [hs] at k
      split at h
      · split at h
        · cases h; exact k
        · cases h
      · cases h
      · cases h
      · cases h
    · rw [hs] at k; cases k
  · cases h
  · cases h
  · cases h

/-- The client that comes out of connecting: its codec and its write buffer. -/
theorem asyncConnect_state [B64] (p : ResParser) (t : Trip) (url : Url) (c : AsyncClient) (calls : List NetCall)
    (h : t.asyncConnect p url = (.client c, calls)) :
    c.read = Framed.fromParts (MsgCodec.newWithLimits .client (100 * 2 ^ 20) (200 * 2 ^ 20)) c.read.buf ∧ c.write.buf.WF ∧ c.write.buf.data = [] ∧
      c.write.isServer = false := by
  obtain ⟨d, hd⟩ := asyncConnect_client_of p t url c calls h
  obtain ⟨-, -, k3, codec, k4⟩ := asyncConnectOn_keeps p t.fresh t.extra _ d c hd
  have hlm := C39_async_client_limits p t.fresh t.extra d url [] c hd
  have hcod : codec = MsgCodec.newWithLimits .client (100 * 2 ^ 20) (200 * 2 ^ 20) := by
    have : c.read.codec = codec := by rw [k4]; rfl
    rw [← this]; exact codec_eq hlm.1 hlm.2.1
  exact ⟨hcod ▸ k4, k3, asyncConnectOn_emptied p t.fresh t.extra _ d c hd, hlm.2.2⟩

/-- A case of the async client does not end the program. -/
theorem asyncCaseVisit_no_panic [B64] (p : ResParser) (t : Trip) (n : Nat) : (asyncCaseVisit p t n).1 ≠ .panicked := by
  unfold asyncCaseVisit
  split
  · next c calls h =>
    obtain ⟨h1, h2, h3, -⟩ := asyncConnect_state p t _ c calls h
    have hf : FitAsync c.read.codec := by rw [h1]; exact fitAsync_new _ _ _
    exact asyncCase_no_panic t.keys t.extra c.read c.stream.input c.write c.stream.output hf h2 h3
  · intro h; cases h
  · next why calls h => exact absurd (by rw [h]) (asyncConnect_no_panic p t (caseUrl n) why)

theorem asyncReportsVisit_end [B64] (p : ResParser) (t : Trip) :
    (asyncReportsVisit p t).1 = .returned ∨ (asyncReportsVisit p t).1 = .panicked := by
  unfold asyncReportsVisit asyncReports
  split
  · simp only
    split <;> simp
  · exact .inr rfl
  · exact .inr rfl

theorem asyncRunCases_spec [B64] (p : ResParser) (world : Nat → Trip) (n id : Nat) (h0 : 0 < id) (hid : id ≤ n + 1) :
    let o := asyncRunCases p world n id
    o.2.length = n + 2 - id ∧
    (∀ i v, o.2[i]? = some v → v = (asyncErrandVisit p (world (id + i)) (errandAt n (id + i))).2) ∧
    o.1 = (asyncErrandVisit p (world (n + 1)) (errandAt n (n + 1))).1 := by
  simp only
  fun_induction asyncRunCases p world n id with
  | case1 id hle v hv => exact absurd (by rw [hv]) (asyncCaseVisit_no_panic p (world id) id)
  | case2 id hle fin v hne hv fin' vs hr ih =>
    have hi := ih (by omega) (by omega)
    rw [hr] at hi
    simp only at hi
    obtain ⟨h2, h3, h4⟩ := hi
    have he : errandAt n id = .case id := by unfold errandAt; rw [if_neg (by omega), if_pos hle]
    have hv' : asyncErrandVisit p (world id) (errandAt n id) = (fin, v) := by rw [he]; exact hv
    refine ⟨by simp only [List.length_cons]; omega, ?_, h4⟩
    intro i u hu'
    cases i with
    | zero =>
      simp only [List.getElem?_cons_zero, Option.some.injEq] at hu'
      subst hu'
      simp only [Nat.add_zero, hv']
    | succ i =>
      simp only [List.getElem?_cons_succ] at hu'
      have := h3 i u hu'
      rw [show id + 1 + i = id + (i + 1) by omega] at this
      exact this
  | case3 id hle fin v hv =>
    have hid' : id = n + 1 := by omega
    subst hid'
    have he : errandAt n (n + 1) = .reports := by unfold errandAt; rw [if_neg (by omega), if_neg (by omega)]
    have hv' : asyncErrandVisit p (world (n + 1)) (errandAt n (n + 1)) = (fin, v) := by rw [he]; exact hv
    refine ⟨by simp, ?_, by rw [hv']⟩
    intro i u hu'
    cases i with
    | zero =>
      simp only [List.getElem?_cons_zero, Option.some.injEq] at hu'
      subst hu'
      simp [hv']
    | succ i => simp at hu'

end WS
