import Verif.Lemmas.Tcp
/-!
# C97, C98: listening sockets

C97: every client that connects to a TCP source is accepted and served by a thread of its own, and threads that have ended are
joined.  C98: the statsd source reads every datagram that arrives, once, in order.
-/
namespace Verif

/-! ## C97: the accept loop -/

private theorem inits {α : Type} (as : List α) : ∀ s : Tcp.TokenSlab α,
    (as.map some).foldl Tcp.bind (some s) = some { tokens := s.tokens ++ as, count := s.count + as.length } := by
  induction as with
  | nil => intro s; simp
  | cons a as ih =>
    intro s
    simp only [List.map_cons, List.foldl_cons, Tcp.bind, ih, Tcp.TokenSlab.insert]
    simp [Nat.add_comm, Nat.add_left_comm]

private theorem inits_none {α : Type} (as : List (Option α)) :
    as.foldl Tcp.bind (none : Option (Tcp.TokenSlab α)) = none := by
  induction as with
  | nil => rfl
  | cons a as ih => exact ih

private theorem inits_bad {α : Type} (as : List (Option α)) : ∀ s : Option (Tcp.TokenSlab α), none ∈ as →
    as.foldl Tcp.bind s = none := by
  induction as with
  | nil => intro s h; simp at h
  | cons a as ih =>
    intro s h
    rcases List.mem_cons.1 h with h | h
    · subst h
      rw [List.foldl_cons]
      cases s <;> exact inits_none as
    · exact ih _ h

/-- Listeners get a token each: 0, 1, … in the order of their addresses; an event's token finds its listener; the token of the stream
event is none of theirs, and with fewer than 2048 addresses neither is the system token. -/
theorem C97_tokens {α : Type} (as : List α) : ∃ slab t, Tcp.init (some (as.map some)) = some (slab, t) ∧
    (slab.iter.map fun x => x.1) = List.range as.length ∧
    (∀ k, slab.index k = as[k]?) ∧ (∀ k x, (k, x) ∈ slab.iter ↔ as[k]? = some x) ∧
    t ∉ slab.iter.map (fun x => x.1) ∧
    (as.length < Tcp.SYSTEM → t ≠ Tcp.SYSTEM ∧ Tcp.SYSTEM ∉ slab.iter.map fun x => x.1) := by
  have hmap : ((as.zipIdx.map fun x => (x.2, x.1)).map fun x => x.1) = List.range as.length := by
    rw [List.map_map]
    have : ((fun x : Nat × α => x.1) ∘ fun x : α × Nat => (x.2, x.1)) = Prod.snd := rfl
    rw [this, List.zipIdx_map_snd, List.range_eq_range']
  refine ⟨{ tokens := as, count := as.length }, as.length, ?_, ?_, fun _ => rfl, ?_, ?_, ?_⟩
  · simp only [Tcp.init, inits]; simp
  · exact hmap
  · intro k x
    simp only [Tcp.TokenSlab.iter, List.mem_map, Prod.mk.injEq, Prod.exists, List.mem_zipIdx_iff_getElem?]
    constructor
    · rintro ⟨a, b, h, rfl, rfl⟩; exact h
    · intro h; exact ⟨x, k, h, rfl, rfl⟩
  · simp only [Tcp.TokenSlab.iter, hmap]; simp
  · intro h
    simp only [Tcp.TokenSlab.iter, hmap, List.mem_range]
    omega

/-- The source does not start unless it could be bound to every address. -/
theorem C97_all_or_nothing {α : Type} (addrs : Option (List (Option α))) :
    (Tcp.init addrs).isSome ↔ ∃ as : List α, addrs = some (as.map some) := by
  constructor
  · intro h
    cases addrs with
    | none => simp [Tcp.init] at h
    | some as =>
      have hn : none ∉ as := fun hm => by
        simp only [Tcp.init] at h
        rw [inits_bad as _ hm] at h
        simp at h
      refine ⟨as.filterMap id, ?_⟩
      congr 1
      clear h
      induction as with
      | nil => rfl
      | cons a as ih =>
        simp only [List.mem_cons, not_or] at hn
        cases a with
        | none => exact absurd rfl hn.1
        | some x => simp only [List.filterMap_cons, id, List.map_cons]; rw [← ih hn.2]
  · rintro ⟨as, rfl⟩
    obtain ⟨slab, t, h, -⟩ := C97_tokens as
    simp [h]

/-- With 2048 addresses, events of ended handlers carry the token that means "shut down". -/
theorem C97_tokens_false : ∃ (as : List Nat) (slab : Tcp.TokenSlab Nat) (t : Nat),
    Tcp.init (some (as.map some)) = some (slab, t) ∧ t = Tcp.SYSTEM := by
  refine ⟨List.replicate 2048 0, { tokens := [] ++ List.replicate 2048 0, count := 0 + (List.replicate 2048 0).length }, 2048, ?_, rfl⟩
  simp only [Tcp.init, inits, List.length_replicate, Option.map_some]

/-- While the source serves, a client waiting at a registered listener is not forgotten: the listener is about to be looked at.  It is
partial because a listener is not registered any more after one unexpected error (`C97_accept_error_false`), and because the loop may
not get round to it (`C97_starved_false`). -/
theorem C97_not_forgotten_partial (registered : List Bool) (hn : registered.length < Tcp.SYSTEM) (ls : List Tcp.Label) (s : Tcp.State)
    (hr : Tcp.run (.start registered) ls = some s) (hs : s.serving) (i : Nat) (l : Tcp.Listener) (hl : s.listeners[i]? = some l)
    (hreg : l.registered = true) (hw : 0 < l.waiting) : s.noticed i := by
  rw [Tcp.noticed_iff]
  exact ((Tcp.Inv.start registered).run hn ls hr).1.waiting hs i l hl hreg hw

/-- When the loop looks at a listener, it can take all clients that wait there, and goes on to the next event. -/
theorem C97_accepts_all (registered : List Bool) (hn : registered.length < Tcp.SYSTEM) (ls : List Tcp.Label) (s : Tcp.State)
    (hr : Tcp.run (.start registered) ls = some s) (i : Nat) (events : List Nat) (hp : s.phase = .accepting i events) :
    ∃ (l : Tcp.Listener) (s' : Tcp.State), s.listeners[i]? = some l ∧
      Tcp.run s (List.replicate l.waiting (.accept .ok) ++ [.accept .wouldBlock]) = some s' ∧
      s'.accepted = s.accepted ++ List.replicate l.waiting i ∧
      s'.threads.spawned.length = s.threads.spawned.length + l.waiting ∧ s'.phase = .handling events := by
  have hinv := ((Tcp.Inv.start registered).run hn ls hr).1
  have hi := hinv.acc i events hp
  have hlt : i < s.listeners.length := by have := hinv.len; omega
  suffices h : ∀ (w : Nat) (s : Tcp.State) (l : Tcp.Listener), s.listeners[i]? = some l → l.waiting = w →
      s.phase = .accepting i events → s.threads.phase = .serving →
      ∃ s', Tcp.run s (List.replicate w (.accept .ok) ++ [.accept .wouldBlock]) = some s' ∧
      s'.accepted = s.accepted ++ List.replicate w i ∧
      s'.threads.spawned.length = s.threads.spawned.length + w ∧ s'.phase = .handling events by
    obtain ⟨s', h'⟩ := h _ s _ (List.getElem?_eq_getElem hlt) rfl hp hinv.serving
    exact ⟨_, s', List.getElem?_eq_getElem hlt, h'⟩
  intro w
  induction w with
  | zero =>
    intro s l hl hw hp _
    exact ⟨{ s with phase := .handling events }, by simp [Tcp.run, Tcp.step, hp, hl, hw], by simp, by simp, rfl⟩
  | succ w ih =>
    intro s l hl hw hp hth
    have hstep : Tcp.step s (.accept .ok) = some { s.modify i (fun l => { l with waiting := l.waiting - 1 }) with
        threads := { s.threads with
              pool := s.threads.pool.spawn.2, running := s.threads.running ++ [s.threads.pool.threadId],
              spawned := s.threads.spawned ++ [s.threads.pool.threadId] }, accepted := s.accepted ++ [i] } := by
      simp [Tcp.step, hp, hl, hw, Thread.step, hth, Thread.Pool.spawn]
    obtain ⟨s', h1, h2, h3, h4⟩ := ih { s.modify i (fun l => { l with waiting := l.waiting - 1 }) with
        threads := { s.threads with
              pool := s.threads.pool.spawn.2, running := s.threads.running ++ [s.threads.pool.threadId],
              spawned := s.threads.spawned ++ [s.threads.pool.threadId] }, accepted := s.accepted ++ [i] }
      { l with waiting := l.waiting - 1 } (by simp [Tcp.State.modify, hl]) (by simp [hw]) (by simp [Tcp.State.modify, hp]) hth
    refine ⟨s', ?_, ?_, ?_, h4⟩
    · rw [List.replicate_succ, List.cons_append, Tcp.run, hstep]
      exact h1
    · rw [h2]; simp [List.replicate_succ]
    · rw [h3]; simp; omega

/-- Every accepted connection has a thread of its own, and all of them have different ids. -/
theorem C97_handlers (registered : List Bool) (hn : registered.length < Tcp.SYSTEM) (ls : List Tcp.Label) (s : Tcp.State)
    (hr : Tcp.run (.start registered) ls = some s) : s.threads.spawned.length = s.accepted.length ∧ s.threads.spawned.Nodup := by
  have h := ((Tcp.Inv.start registered).run hn ls hr).1
  exact ⟨h.count, h.threads.spawned ▸ List.nodup_range⟩

/-- A handler that has ended and has said so is joined: the loop is about to look at the stream event. -/
theorem C97_joined (registered : List Bool) (hn : registered.length < Tcp.SYSTEM) (ls : List Tcp.Label) (s : Tcp.State)
    (hr : Tcp.run (.start registered) ls = some s) (hs : s.serving) (id : Nat) (hid : id ∈ s.threads.pool.joinable) :
    id ∈ s.unflagged ∨ s.noticed registered.length := by
  rw [Tcp.noticed_iff]
  exact ((Tcp.Inv.start registered).run hn ls hr).1.ended hs id hid

/-- The source does not panic unless a poll fails: no event has a token it does not know. -/
theorem C97_no_panic (registered : List Bool) (hn : registered.length < Tcp.SYSTEM) (ls : List Tcp.Label) (s : Tcp.State)
    (hr : Tcp.run (.start registered) ls = some s) (hp : .pollFails ∉ ls) : s.phase ≠ .panicked :=
  ((Tcp.Inv.start registered).run hn ls hr).2 hp (by simp [Tcp.State.start])

/-- A poll, two connections at the second of two listeners, one handler that ends, another poll. -/
private def busy : List Tcp.Label :=
  [.connect 1, .poll [1], .event, .connect 1, .accept .ok, .accept .again, .accept .ok, .finish 0, .accept .wouldBlock, .connect 0, .event,
   .flag 0, .poll [1, 2]]

/-- `C97_not_forgotten_partial`, `C97_handlers`, `C97_joined` and `C97_no_panic` are not vacuous. -/
example : ∃ s, Tcp.run (.start [true, true]) busy = some s ∧ s.serving ∧ s.threads.pool.joinable = [0] ∧
    (s.listeners.map fun l => (l.waiting, l.registered)) = [(1, true), (0, true)] ∧ s.accepted = [1, 1] ∧ .pollFails ∉ busy :=
  ⟨(Tcp.run (.start [true, true]) busy).getD (.start []), by simp only [Tcp.State.serving]; decide⟩

/-- The hypotheses of `C97_accepts_all` are met. -/
example : ∃ s, Tcp.run (.start [true, true]) [.connect 1, .connect 1, .poll [1], .event] = some s ∧ s.phase = .accepting 1 [] ∧
    s.listeners[1]?.map (fun l => l.waiting) = some 2 :=
  ⟨(Tcp.run (.start [true, true]) [.connect 1, .connect 1, .poll [1], .event]).getD (.start []), by decide⟩

/-- One unexpected error, say that the process has too many files open for the moment, and the source never accepts a client at that
address again: whatever happens next, those that wait there go on waiting. -/
theorem C97_accept_error_false : ∃ ls s, Tcp.run (.start [true]) ls = some s ∧
    ∀ ls' s', Tcp.run s ls' = some s' → s'.accepted = [] ∧ ∀ l, s'.listeners[0]? = some l → 2 ≤ l.waiting := by
  refine ⟨[.connect 0, .connect 0, .poll [0], .event, .accept .other, .event],
    (Tcp.run (.start [true]) [.connect 0, .connect 0, .poll [0], .event, .accept .other, .event]).getD (.start []), by decide, ?_⟩
  intro ls' s' hr
  have hg : Tcp.GivenUp 0 ((Tcp.run (.start [true]) [.connect 0, .connect 0, .poll [0], .event, .accept .other, .event]).getD (.start [])) := by
    refine ⟨by decide, ?_, by decide⟩
    intro l hl
    have e : ((Tcp.run (.start [true]) [.connect 0, .connect 0, .poll [0], .event, .accept .other, .event]).getD (.start [])).listeners[0]? =
      some { waiting := 2, registered := false, ready := false } := by decide
    rw [e] at hl
    simp only [Option.some.injEq] at hl
    rw [← hl]
  obtain ⟨h1, h2⟩ := hg.run ls' (by decide) hr
  have hinv : Tcp.Inv 1 s' := by
    have := ((Tcp.Inv.start [true]).run (by decide) ([.connect 0, .connect 0, .poll [0], .event, .accept .other, .event] ++ ls') (s' := s')
      (by rw [Tcp.run_append]; exact hr)).1
    exact this
  obtain ⟨k', hk', hle⟩ := h2 { waiting := 2, registered := false, ready := false } (by decide)
  refine ⟨?_, fun l hl => by rw [hk', Option.some.injEq] at hl; subst hl; exact hle⟩
  -- the only listener is number 0
  have hall := Tcp.accepted_only
  refine hall ls' _ s' (by decide) (by decide) hr ?_
  rw [h1]; decide

/-- As long as new clients connect quickly enough to one address, the source looks at nothing else: here, an order to shut down and a
client at another address wait through as many connections as one likes. -/
theorem C97_starved_false (n : Nat) : ∃ ls s, Tcp.run (.start [true, true]) ls = some s ∧ s.systemReady = true ∧
    s.pending 1 = true ∧ s.accepted = List.replicate n 0 ∧ s.phase = .accepting 0 [] := by
  suffices h : ∃ ls s, Tcp.run (.start [true, true]) ls = some s ∧ s.systemReady = true ∧
      s.listeners = [{ waiting := 0, ready := decide (0 < n) }, { waiting := 1, ready := true }] ∧
      s.threads.phase = .serving ∧ s.accepted = List.replicate n 0 ∧ s.phase = .accepting 0 [] by
    obtain ⟨ls, s, h1, h2, h3, -, h4, h5⟩ := h
    exact ⟨ls, s, h1, h2, by simp [Tcp.State.pending, h3, Tcp.SYSTEM], h4, h5⟩
  induction n with
  | zero =>
    refine ⟨[.connect 0, .poll [0], .event, .accept .aborted, .shutdown, .connect 1],
      (Tcp.run (.start [true, true]) [.connect 0, .poll [0], .event, .accept .aborted, .shutdown, .connect 1]).getD (.start []), by decide⟩
  | succ n ih =>
    obtain ⟨ls, s, h1, h2, h3, h4, h5, h6⟩ := ih
    refine ⟨ls ++ [.connect 0, .accept .ok], ?_⟩
    rw [Tcp.run_append, h1]
    have e1 : Tcp.step s (.connect 0) = some { s with listeners := [{ waiting := 1, ready := true }, { waiting := 1, ready := true }] } := by
      simp [Tcp.step, Tcp.State.modify, h3]
    have e2 : Tcp.step { s with listeners := [{ waiting := 1, ready := true }, { waiting := 1, ready := true }] } (.accept .ok) = some { s with
        listeners := [{ waiting := 0, ready := true }, { waiting := 1, ready := true }], accepted := s.accepted ++ [0],
        threads := { s.threads with pool := s.threads.pool.spawn.2, running := s.threads.running ++ [s.threads.pool.threadId], spawned := s.threads.spawned ++ [s.threads.pool.threadId] } } := by
      simp [Tcp.step, Tcp.State.modify, h6, Thread.step, h4, Thread.Pool.spawn]
    simp only [Option.bind_some, Tcp.run, e1, e2]
    exact ⟨_, rfl, h2, by simp, h4, by simp [h5, List.replicate_succ'], h6⟩

/-! ## C98: datagrams -/

private theorem udp_inits {α : Type} (as : List α) : ∀ s : List α,
    (as.map some).foldl Udp.bind (some s) = some (s ++ as) := by
  induction as with
  | nil => intro s; simp
  | cons a as ih => intro s; simp only [List.map_cons, List.foldl_cons, Udp.bind, ih]; simp

/-- Datagrams that arrive at a socket are read once each and in order, whatever else happens: those read and those that wait are those
that have arrived. -/
theorem C98_order (n : Nat) (ls : List Udp.Label) (s : Udp.State) (hr : Udp.run (.start n) ls = some s) (i : Nat) :
    s.readFrom i ++ s.waitingAt i = Udp.arrivals i 0 ls := by
  have h := Udp.run_order i ls hr
  have h0 : (Udp.State.start n).readFrom i ++ (Udp.State.start n).waitingAt i = [] := by
    simp only [Udp.State.start, Udp.State.readFrom, Udp.State.waitingAt, List.getElem?_replicate]
    by_cases hi : i < n <;> simp [hi]
  rw [h, h0]
  rfl

/-- While no read fails, no datagram is forgotten: its socket is about to be looked at.  It is partial because of
`C98_read_error_false`. -/
theorem C98_not_forgotten_partial (n : Nat) (hn : n < Tcp.SYSTEM) (ls : List Udp.Label) (s : Udp.State)
    (hr : Udp.run (.start n) ls = some s) (he : .recv .other ∉ ls) (hs : s.serving) (i : Nat) (hw : s.waitingAt i ≠ []) : s.noticed i := by
  rw [Udp.noticed_iff]
  exact ((Udp.Inv.start n).run ls (by simpa [Udp.State.start] using hn) hr he).1.waiting hs i hw

/-- A poll of two sockets, with datagrams that arrive while one of them is read. -/
private def stream : List Udp.Label :=
  [.arrive 0, .arrive 1, .arrive 0, .poll [1, 0], .event, .recv .ok, .arrive 1, .recv .ok, .recv .wouldBlock, .event, .recv .ok]

/-- `C98_order` and `C98_not_forgotten_partial` are not vacuous. -/
example : ∃ s, Udp.run (.start 2) stream = some s ∧ s.serving ∧ s.read = [(1, 1), (1, 3), (0, 0)] ∧ s.waitingAt 0 = [2] ∧
    Udp.arrivals 0 0 stream = [0, 2] ∧ Udp.arrivals 1 0 stream = [1, 3] ∧ .recv .other ∉ stream :=
  ⟨(Udp.run (.start 2) stream).getD (.start 0), by simp only [Udp.State.serving]; decide⟩

/-- After a read error the datagrams that wait at the socket are forgotten: they are not read, whatever else happens, until another
one arrives there.  (The message in the log says that the socket is deregistered; it is not.) -/
theorem C98_read_error_false : ∃ ls s, Udp.run (.start 1) ls = some s ∧ s.waitingAt 0 = [0, 1] ∧
    (∀ ls' s', Udp.run s ls' = some s' → .arrive 0 ∉ ls' → s'.readFrom 0 = []) ∧
    ∃ ls' s', Udp.run s (.arrive 0 :: ls') = some s' ∧ s'.readFrom 0 = [0, 1, 2] := by
  refine ⟨[.arrive 0, .arrive 0, .poll [0], .event, .recv .other, .event],
    (Udp.run (.start 1) [.arrive 0, .arrive 0, .poll [0], .event, .recv .other, .event]).getD (.start 0), by decide, by decide, ?_, ?_⟩
  · intro ls' s' hr hm
    rw [Udp.unnoticed_run ls' (by decide) (by decide) (by rw [Udp.noticed_iff]; decide) hr hm]
    decide
  · exact ⟨[.poll [0], .event, .recv .ok, .recv .ok, .recv .ok],
      (Udp.run (.start 1) ([.arrive 0, .arrive 0, .poll [0], .event, .recv .other, .event] ++
        [.arrive 0, .poll [0], .event, .recv .ok, .recv .ok, .recv .ok])).getD (.start 0), by decide, by decide⟩

/-- The statsd source binds a socket to every address its host has. -/
theorem C98_bound {α : Type} (as : List α) : Udp.init (some (as.map some)) = some as := by
  simp only [Udp.init, udp_inits]; simp

/-- When the host's name cannot be looked up — at that moment — the source starts all the same, and never hears anything. -/
theorem C98_lookup_false : Udp.init (none : Option (List (Option Nat))) = some [] ∧
    ∀ ls s, Udp.run (.start 0) ls = some s → s.read = [] := by
  refine ⟨rfl, ?_⟩
  have hall : ∀ (ls : List Udp.Label) (s s' : Udp.State), s.sockets = [] → s.read = [] → Udp.run s ls = some s' → s'.read = [] := by
    intro ls
    induction ls with
    | nil => intro s s' _ h hr; simp only [Udp.run, Option.some.injEq] at hr; subst hr; exact h
    | cons l ls ih =>
      intro s s' h0 h hr
      simp only [Udp.run, Option.bind_eq_some_iff] at hr
      obtain ⟨s1, h1, h2⟩ := hr
      have hlen := Udp.step_len l h1
      refine ih s1 s' (by rw [h0] at hlen; exact List.length_eq_zero_iff.1 hlen) ?_ h2
      cases l with
      | arrive j => simp [Udp.step, h0] at h1
      | shutdown => simp only [Udp.step, Option.some.injEq] at h1; subst h1; exact h
      | poll es =>
        simp only [Udp.step] at h1; split at h1 <;> simp at h1; subst h1
        exact (Udp.reports es s).2.1.trans h
      | pollFails => simp only [Udp.step] at h1; split at h1 <;> simp at h1; subst h1; exact h
      | event =>
        simp only [Udp.step] at h1
        split at h1
        · simp at h1; subst h1; exact h
        · split at h1
          · simp at h1; subst h1; exact h
          · split at h1 <;> simp at h1 <;> subst h1 <;> exact h
        · cases h1
      | recv r =>
        simp only [Udp.step] at h1
        split at h1
        · simp [h0] at h1
        · cases h1
  intro ls s hr
  exact hall ls _ s rfl rfl hr

end Verif
