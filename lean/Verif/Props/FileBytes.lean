import Verif.Lemmas.FileBytes
import Verif.Lemmas.Utf8
/-!
# C103 — tailing a file of bytes

What `Props/File.lean` says of files of text holds of files of bytes read through a buffer, as far as it goes: lines that are
not UTF-8 are left out, and nothing else changes.
-/
namespace Verif
open FileBytes
open Graphite (finishedLines utf8Valid)

private theorem start_inv (content : Bytes) (path : Str) :
    Inv content.length [] (World.start content path) [] { file := 0, pos := content.length } := by
  constructor <;> simp [World.start, Watcher.new, fsOf, shown]

/-- **C103 (part).**  A file is only appended to, and every write ends with a line feed; the bytes are arbitrary, the writes may come at any
time, also in the middle of a read, and lines may be longer than the reader's buffer or lie across its end.  Then what the watcher
hands over are the lines written since it started, in order, without those that are not UTF-8 and without blank ones, none
twice; and once as many reads were made as there are lines, all of them.  Missing from the full statement: the lines left out, and writes
that end inside a line, see below. -/
theorem C103_lines_partial (content : Bytes) (path : Str) (steps : List Step) (hw : ∀ s ∈ steps, ∀ p ∈ s.pieces, Whole p) :
    ∃ n, ((World.start content path).run steps).delivered = shown ((finishedLines (written steps)).take n) ∧
      ∀ m, (finishedLines (written steps)).length ≤ m + n →
        (((World.start content path).run steps).run (List.replicate m (.read []))).delivered =
          shown (finishedLines (written steps)) := by
  have h := from_inv content.length [] (World.start content path) [] { file := 0, pos := content.length } (start_inv content path)
    (by simp [World.start]; exact whole_nil) steps hw
  simpa [World.start] using h

/-- A line of text, one that is not, a blank one, and one that is written while the reads go on. -/
example : (∀ s ∈ [Step.append [97, 10, 255, 10, 10], .read [], .read [[98, 10]], .append [195, 169, 10], .read [], .read []],
      ∀ p ∈ s.pieces, p.getLast? = some 10) ∧
    ((World.start [120] []).run [.append [97, 10, 255, 10, 10], .read [], .read [[98, 10]], .append [195, 169, 10], .read [],
      .read [], .read []]).delivered = [[97], [98], [195, 169]] := by decide +kernel

/-- **C103**: what is handed over is text. -/
theorem C103_text (ls : List Bytes) (hl : ∀ l ∈ ls, IsLine l) : ∀ d ∈ shown ls, ∃ s : Str, d = s.flatMap String.utf8EncodeChar ∧ s ≠ [] := by
  intro d hd
  simp only [shown, List.mem_map, List.mem_filter, Bool.and_eq_true, bne_iff_ne, ne_eq] at hd
  obtain ⟨l, ⟨hm, hv, hne⟩, rfl⟩ := hd
  obtain ⟨p, rfl, hp⟩ := hl l hm
  rw [List.dropLast_concat]
  have h1 : utf8Valid p = true := by
    have := Graphite.utf8_lf [] p [] (by simp)
    simp only [utf8Valid] at hv ⊢
    rw [this] at hv
    simp only [Bool.and_eq_true] at hv
    exact hv.1
  obtain ⟨s, hs⟩ := (Graphite.valid_iff p).1 h1
  refine ⟨s, hs, ?_⟩
  rintro rfl
  simp at hs
  subst hs
  simp at hne

/-- **C103 is false of the code for lines that are not UTF-8**: they are never handed over, whatever is read and written afterwards. -/
theorem C103_not_text_false (content : Bytes) (path : Str) (l : Bytes) (hl : IsLine l) (hv : utf8Valid l = false) (n : Nat) :
    ((World.start content path).run (.append l :: List.replicate n (.read []))).delivered = [] := by
  have hlw : Whole l := by
    obtain ⟨p, rfl, -⟩ := hl
    intro b hb
    simp at hb; exact hb.symm
  obtain ⟨k, h, -⟩ := C103_lines_partial content path (.append l :: List.replicate n (.read [])) (by
    intro s hs p hp
    rcases List.mem_cons.1 hs with rfl | hs
    · simp only [Step.pieces, List.mem_singleton] at hp; subst hp; exact hlw
    · rw [List.eq_of_mem_replicate hs] at hp; simp [Step.pieces] at hp)
  rw [h]
  have hwr : written (.append l :: List.replicate n (.read [])) = l := by
    have : ∀ n, (List.replicate n (Step.read [])).flatMap Step.pieces = [] := by
      intro n
      induction n with
      | zero => rfl
      | succ n ih => rw [List.replicate_succ, List.flatMap_cons, ih]; rfl
    simp [written, List.flatMap_cons, this, Step.pieces]
  have hfl : finishedLines l = [l] := by
    obtain ⟨p, rfl, hp⟩ := hl
    have := finished_line p [] hp
    simpa [finishedLines] using this
  rw [hwr, hfl]
  cases k with
  | zero => simp [shown]
  | succ k => simp [shown, hv]

example : IsLine [255, 10] ∧ utf8Valid [255, 10] = false := ⟨⟨[255], rfl, by decide⟩, by decide⟩

/-- **C103 is false of the code for a write that ends inside a character**: both parts of the line are lost. -/
theorem C103_cut_character_false :
    ((World.start [] []).run [.append [195], .read [], .append [169, 10], .read [], .read []]).delivered = [] ∧
    ((World.start [] []).run [.append [195, 169, 10], .read [], .read []]).delivered = [[195, 169]] := by decide +kernel

/-! ## The server -/

/-- **C103 (the buffer).**  Whatever happens to the files, the paths and their contents, before and during the polling of a file: the buffer
is empty whenever the polling starts and ends, and the assertion on its length never fails. -/
theorem C103_buffer (max fuel turns : Nat) (calls : Nat → Nat → FS) (w : Watcher) (bytes : Nat) (lines : List Bytes) :
    (pollFile max fuel turns calls w [] bytes lines).1 = true ∧
    (pollFile max fuel turns calls w [] bytes lines).2.2.2.1 = [] := by
  have hrl : ∀ (fss : Nat → FS) (w : Watcher) (o : Outcome) (b : Bytes) (w' : Watcher),
      w.readLine fuel fss [] = (o, b, w') → o ≠ .panic ∧ (o = .error ∨ o = .hangs → b = []) ∧ (∀ n, o = .ok n → b.length = n) := by
    intro fss w o b w' h
    simp only [Watcher.readLine] at h
    generalize (if w.reopen = true then w.openAtStart (fss 0) else w) = w1 at h
    cases hr : w1.reader with
    | none =>
      simp only [hr, Prod.mk.injEq] at h
      obtain ⟨rfl, rfl, rfl⟩ := h
      exact ⟨by simp, by simp, by simp⟩
    | some r =>
      simp only [hr] at h
      generalize (if w1.previousSize > ((fss 0).files r.file).length then r.rewind else r) = r1 at h
      cases hu : r1.readUntil fuel fss [] 1 with
      | none =>
        simp only [hu, Prod.mk.injEq] at h
        obtain ⟨rfl, rfl, rfl⟩ := h
        exact ⟨by simp, by simp, by simp⟩
      | some x =>
        obtain ⟨l, r2, k⟩ := x
        simp only [hu] at h
        by_cases hv : utf8Valid l = true
        · simp only [hv, if_true] at h
          by_cases hl : l = []
          · simp only [hl, if_true, Prod.mk.injEq] at h
            obtain ⟨rfl, rfl, rfl⟩ := h
            exact ⟨by simp, by simp, by simp⟩
          · simp only [hl, if_false, List.nil_append, if_true, Prod.mk.injEq] at h
            obtain ⟨rfl, rfl, rfl⟩ := h
            exact ⟨by simp, by simp, by simp⟩
        · simp only [hv, Bool.false_eq_true, if_false, Prod.mk.injEq] at h
          obtain ⟨rfl, rfl, rfl⟩ := h
          exact ⟨by simp, by simp, by simp⟩
  induction turns generalizing calls w bytes lines with
  | zero => exact ⟨rfl, rfl⟩
  | succ turns ih =>
    simp only [pollFile]
    rcases hq : w.readLine fuel (calls 0) [] with ⟨o, b, w'⟩
    obtain ⟨h1, h2, h3⟩ := hrl _ _ _ _ _ hq
    cases o with
    | panic => exact absurd rfl h1
    | error => exact ⟨rfl, h2 (Or.inl rfl)⟩
    | hangs => exact ⟨rfl, h2 (Or.inr rfl)⟩
    | ok n =>
      by_cases hn : n > 0
      · simp only [hn, if_true]
        by_cases hm : bytes + n > max
        · simp only [hm, if_true]; exact ⟨trivial, trivial⟩
        · simp only [hm, if_false]; exact ih _ _ _ _
      · simp only [hn, if_false]
        refine ⟨trivial, List.eq_nil_of_length_eq_zero ?_⟩
        rw [h3 n rfl]; omega

/-- The assertion is one that a buffer that is not empty would fail. -/
example : ((Watcher.mk [] (some { file := 0 }) (some 0) 0 false).readLine 10 (fun _ => fsOf [97, 10]) [98]).1 = .panic := by
  decide +kernel

/-- **C103 (the server's passes; part).**  As `C103_lines_partial`, for what the server sends in its passes, whatever the limit on the bytes
read in one: the lines written come in order, none twice, without those that are not UTF-8 and without blank ones; and each further pass
makes progress while there are lines left.  Missing from the full statement: as for `C103_lines_partial`. -/
theorem C103_passes_partial (max : Nat) (content : Bytes) (path : Str) (events : List FileBytes.Event)
    (hw : ∀ e ∈ events, ∀ p ∈ e.pieces, Whole p) :
    ∃ n, ((World.start content path).serve max events).delivered = shown ((finishedLines (Event.written events)).take n) ∧
      ∀ m, (finishedLines (Event.written events)).length ≤ m + n →
        (((World.start content path).serve max events).serve max (List.replicate m (.pass []))).delivered =
          shown (finishedLines (Event.written events)) := by
  obtain ⟨new, r', k1, k2, k3⟩ := serve_inv max content.length [] events _ [] _ (start_inv content path)
    (by simp [World.start]; exact whole_nil) hw
  have hd : ((World.start content path).serve max events).content.drop content.length = Event.written events := by
    rw [k2]; simp [World.start]
  have hf : finishedLines (Event.written events) =
      ([] ++ new) ++ finishedLines (r'.staged ++ ((World.start content path).serve max events).content.drop r'.pos) := by
    rw [← hd, k1.unread, finished_lines _ k1.lines]
  refine ⟨([] ++ new).length, ?_, ?_⟩
  · rw [hf, List.take_left', k1.shown]; · simp
    rfl
  · intro m hm
    rw [← hd]
    rw [← hd] at hm
    have := passes_all max content.length [] m _ _ r' k1 k3 hm
    simpa using this

/-- A limit of two bytes: the first pass stops behind the second line; a line is written while the next one goes on. -/
example : ((World.start [120, 10] []).serve 2 [.append [97, 97, 10, 98, 10, 99, 10], .pass []]).delivered = [[97, 97], [98]] ∧
    ((World.start [120, 10] []).serve 2 [.append [97, 97, 10, 98, 10, 99, 10], .pass [], .pass [[[100, 10]]]]).delivered =
      [[97, 97], [98], [99], [100]] := by decide +kernel

/-- **C103 (fair passes).**  Whatever happens to the files meanwhile, a pass counts the bytes of the lines it takes, none of them is
blank, and before the last of them the limit was not exceeded. -/
theorem C103_fair (max fuel turns : Nat) (calls : Nat → Nat → FS) (w : Watcher) :
    let res := pollFile max fuel turns calls w [] 0 []
    res.2.2.1 = res.2.1.flatten.length ∧ (∀ l ∈ res.2.1, l ≠ []) ∧ res.2.1.dropLast.flatten.length ≤ max := by
  have hrl : ∀ (fss : Nat → FS) (w : Watcher) (n : Nat) (b : Bytes) (w' : Watcher),
      w.readLine fuel fss [] = (.ok n, b, w') → b.length = n := by
    intro fss w n b w' h
    simp only [Watcher.readLine] at h
    generalize (if w.reopen = true then w.openAtStart (fss 0) else w) = w1 at h
    cases hr : w1.reader with
    | none =>
      simp only [hr, Prod.mk.injEq, Outcome.ok.injEq] at h
      obtain ⟨rfl, rfl, rfl⟩ := h
      rfl
    | some r =>
      simp only [hr] at h
      generalize (if w1.previousSize > ((fss 0).files r.file).length then r.rewind else r) = r1 at h
      cases hu : r1.readUntil fuel fss [] 1 with
      | none => simp [hu] at h
      | some x =>
        obtain ⟨l, r2, k⟩ := x
        simp only [hu] at h
        by_cases hv : utf8Valid l = true
        · simp only [hv, if_true] at h
          by_cases hl : l = []
          · simp only [hl, if_true, Prod.mk.injEq, Outcome.ok.injEq] at h
            obtain ⟨rfl, rfl, rfl⟩ := h
            rfl
          · simp only [hl, if_false, List.nil_append, if_true, Prod.mk.injEq, Outcome.ok.injEq] at h
            obtain ⟨rfl, rfl, rfl⟩ := h
            rfl
        · simp [hv] at h
  have key : ∀ (turns : Nat) (calls : Nat → Nat → FS) (w : Watcher) (lines : List Bytes), (∀ l ∈ lines, l ≠ []) →
      lines.flatten.length ≤ max →
      (pollFile max fuel turns calls w [] lines.flatten.length lines).2.2.1 =
        (pollFile max fuel turns calls w [] lines.flatten.length lines).2.1.flatten.length ∧
      (∀ l ∈ (pollFile max fuel turns calls w [] lines.flatten.length lines).2.1, l ≠ []) ∧
      (pollFile max fuel turns calls w [] lines.flatten.length lines).2.1.dropLast.flatten.length ≤ max := by
    have hdl : ∀ lines : List Bytes, lines.dropLast.flatten.length ≤ lines.flatten.length := by
      intro lines
      rcases List.eq_nil_or_concat lines with rfl | ⟨a, b, rfl⟩
      · simp
      · simp
    intro turns
    induction turns with
    | zero => intro calls w lines hl hm; exact ⟨rfl, hl, Nat.le_trans (hdl lines) hm⟩
    | succ turns ih =>
      intro calls w lines hl hm
      simp only [pollFile]
      rcases hq : w.readLine fuel (calls 0) [] with ⟨o, b, w'⟩
      cases o with
      | panic => exact ⟨rfl, hl, Nat.le_trans (hdl lines) hm⟩
      | error => exact ⟨rfl, hl, Nat.le_trans (hdl lines) hm⟩
      | hangs => exact ⟨rfl, hl, Nat.le_trans (hdl lines) hm⟩
      | ok n =>
        have hb := hrl _ _ _ _ _ hq
        by_cases hn : n > 0
        · simp only [hn, if_true]
          have hne : ∀ l ∈ lines ++ [b], l ≠ [] := by
            intro l hx
            rcases List.mem_append.1 hx with hx | hx
            · exact hl l hx
            · rw [List.mem_singleton] at hx
              subst hx
              rintro rfl
              simp at hb; omega
          have hlen : lines.flatten.length + n = (lines ++ [b]).flatten.length := by
            simp [hb]
          by_cases hx : lines.flatten.length + n > max
          · simp only [hx, if_true]
            exact ⟨hlen, hne, by simpa using hm⟩
          · simp only [hx, if_false]
            rw [hlen]
            exact ih _ _ _ hne (by omega)
        · simp only [hn, if_false]
          exact ⟨trivial, hl, Nat.le_trans (hdl lines) hm⟩
  exact key turns calls w [] (by simp) (by simp)

/-- **C103 is false of the code while lines that are not UTF-8 are read**: each of them ends a pass and counts as nothing read, so the server
waits longer and longer although lines are there: after `k` passes none of the good lines behind them was sent, and the waits were 2, 4,
8, …, up to 2048 milliseconds. -/
theorem C103_backs_off_false (max : Nat) (path : Str) (bad : List Bytes) (hb : ∀ l ∈ bad, IsLine l ∧ utf8Valid l = false) (good : Bytes)
    (k : Nat) (hk : k ≤ bad.length) :
    let s : Server := { watcher := Watcher.openAtStart (fsOf (bad.flatten ++ good)) ⟨path, none, none, 0, false⟩ }
    (s.passes max (bad.flatten ++ good) k).1.sent = [] ∧
    (s.passes max (bad.flatten ++ good) k).2 = (List.range k).map fun i => min 2048 (2 ^ (i + 1)) := by
  intro s
  -- more generally, from any pass on
  have key : ∀ (F : Bytes) (k : Nat) (ls : List Bytes) (s : Server) (r : Reader) (i : Nat),
      (∀ l ∈ ls, IsLine l ∧ utf8Valid l = false) → k ≤ ls.length → s.watcher.reader = some r → r.file = 0 → r.pos ≤ F.length →
      s.watcher.reopen = false → s.watcher.previousSize ≤ F.length → r.staged ++ F.drop r.pos = ls.flatten ++ good →
      s.backoffCap = min 2048 (2 ^ i) →
      (s.passes max F k).1.sent = s.sent ∧ (s.passes max F k).2 = (List.range' i k).map fun i => min 2048 (2 ^ (i + 1)) := by
    intro F k
    induction k with
    | zero => intros; exact ⟨rfl, rfl⟩
    | succ k ih =>
      intro ls s r i hb hk h1 h2 h3 h4 h5 h6 h7
      cases ls with
      | nil => simp at hk
      | cons l ls =>
        obtain ⟨⟨p, hp1, hp2⟩, hv⟩ := hb l (by simp)
        obtain ⟨l', r', k', g1, g2, g3, g4, g5, g6⟩ := readUntil_spec (fun _ => F) F (fun _ => fsOf F) 0 (fun _ => rfl)
          (fun _ => List.prefix_refl F) (fun _ => Nat.le_refl _) (F.length + 2) r [] 1 h2 h3 (by simp) (by split <;> omega)
        simp only [List.nil_append] at g5
        rw [h6, List.flatten_cons] at g5
        have hl : l' = l ∧ r'.staged ++ F.drop r'.pos = ls.flatten ++ good := by
          rcases g6 with ⟨q, hq1, hq2⟩ | ⟨hn, e1, e2⟩
          · have e : p ++ [10] ++ (ls.flatten ++ good) = q ++ [10] ++ (r'.staged ++ F.drop r'.pos) := by
              rw [← hp1, ← hq1, ← g5]; simp
            obtain ⟨e3, e4⟩ := line_unique p q _ _ hp2 hq2 e
            exact ⟨by rw [hp1, hq1, e3], e4.symm⟩
          · rw [e1, e2] at g5
            simp only [List.drop_length, List.append_nil] at g5
            refine absurd ?_ hn
            rw [← g5, hp1]; simp
        obtain ⟨rfl, hrest⟩ := hl
        have hread : s.watcher.readLine (F.length + 2) (fun _ => fsOf F) [] =
            (.error, [], { s.watcher with previousSize := F.length, reader := some r' }) := by
          have hng : ¬ s.watcher.previousSize > F.length := by omega
          have hfl : ((fsOf F).files r.file).length = F.length := rfl
          simp only [Watcher.readLine, h4, h1, Bool.false_eq_true, if_false, hfl, hng, g1, hv]
        have hpass : s.pass max F = (⟨{ s.watcher with previousSize := F.length, reader := some r' }, File.nextCap s.backoffCap 0, s.sent⟩,
            File.nextCap s.backoffCap 0) := by
          simp only [Server.pass, pollFile, hread, List.append_nil, Nat.sub_zero]
        have hcap : File.nextCap s.backoffCap 0 = min 2048 (2 ^ (i + 1)) := by
          simp only [File.nextCap, if_true]
          rw [h7, Nat.pow_succ]
          have : 0 < 2 ^ i := Nat.pow_pos (by decide)
          split <;> omega
        obtain ⟨a1, a2⟩ := ih ls (s.pass max F).1 r' (i + 1) (fun m hm => hb m (by simp [hm])) (by simpa using hk)
          (by rw [hpass]) g2 g4 (by rw [hpass]; exact h4) (by rw [hpass]; exact Nat.le_refl _) hrest (by rw [hpass]; exact hcap)
        refine ⟨?_, ?_⟩
        · show ((s.pass max F).1.passes max F k).1.sent = s.sent
          rw [a1, hpass]
        · show (s.pass max F).2 :: ((s.pass max F).1.passes max F k).2 = _
          rw [a2, hpass, List.range'_succ, List.map_cons, hcap]
  have := key (bad.flatten ++ good) k bad s { file := 0 } 0 hb hk (by simp [s, Watcher.openAtStart, fsOf]) rfl (Nat.zero_le _)
    (by simp [s, Watcher.openAtStart, fsOf]) (by simp [s, Watcher.openAtStart, fsOf]) (by simp) (by simp [s])
  rw [List.range_eq_range']
  exact this

/-- Three bad lines, then a good one: it is sent in the fourth pass. -/
example : (Server.passes 100 [255, 10, 254, 10, 255, 10, 97, 10] 4
    { watcher := Watcher.openAtStart (fsOf [255, 10, 254, 10, 255, 10, 97, 10]) ⟨[], none, none, 0, false⟩ }).1.sent = [[97]] ∧
    (Server.passes 100 [255, 10, 254, 10, 255, 10, 97, 10] 4
    { watcher := Watcher.openAtStart (fsOf [255, 10, 254, 10, 255, 10, 97, 10]) ⟨[], none, none, 0, false⟩ }).2 = [2, 4, 8, 0] := by
  decide +kernel

/-- **C103 (truncation).**  The watcher has looked at the file after it last grew, and then the file is cut or rewritten in place to fewer bytes,
whole lines.  Then it starts over: the lines of the new content and of what is written later come next, in order, with the exceptions
of `C103_lines_partial`, and none of what was staged of the old content. -/
theorem C103_truncated (content : Bytes) (path : Str) (before after : List Step) (new : Bytes)
    (hb : ∀ s ∈ before, ∀ p ∈ s.pieces, Whole p) (ha : ∀ s ∈ after, ∀ p ∈ s.pieces, Whole p) (hn : Whole new) (w : World)
    (hr : (World.start content path).run (before ++ [.read []]) = w) (hl : new.length < w.content.length) :
    ∃ n, ({ w with content := new }.run (.read [] :: after)).delivered =
        w.delivered ++ shown ((finishedLines (new ++ written after)).take n) ∧
      ∀ m, (finishedLines (new ++ written after)).length ≤ m + n →
        (({ w with content := new }.run (.read [] :: after)).run (List.replicate m (.read []))).delivered =
          w.delivered ++ shown (finishedLines (new ++ written after)) := by
  obtain ⟨ls, r, k1, k2, k3⟩ := run_inv content.length [] before _ [] _ (start_inv content path)
    (by simp [World.start]; exact whole_nil) hb
  obtain ⟨nw, r', g1, -, -, g4⟩ := read_inv content.length [] _ _ r k1 k3 [] (by simp)
  have hw : w = ((World.start content path).run before).step (.read []) := by
    rw [← hr]; simp [World.run, List.foldl_append]
  have hcw : w.content = ((World.start content path).run before).content := by
    rw [hw, content_step]; simp [Step.pieces]
  rw [← hw] at g1 g4
  -- the first read rewinds
  have hi : Inv 0 w.delivered { w with content := new, watcher := { w.watcher with previousSize := 0, reader := some r'.rewind } } []
      r'.rewind := by
    constructor
    · rfl
    · exact g1.file
    · simp [Reader.rewind]
    · exact g1.id
    · exact g1.reopen
    · simp
    · simp [Reader.rewind]
    · simp
    · simp [shown]
    · simp
  have hstep : ({ w with content := new } : World).step (.read []) =
      ({ w with content := new, watcher := { w.watcher with previousSize := 0, reader := some r'.rewind } } : World).step (.read []) := by
    have hgt : w.watcher.previousSize > new.length := by rw [g4, ← hcw]; exact hl
    have hfl : ∀ f, ((growing new [] 0).files f).length = new.length := by simp [growing, fsOf]
    simp only [World.step, Watcher.readLine, g1.reopen, g1.reader, hfl, hgt, Bool.false_eq_true, if_false, if_true,
      show ¬ (0 > new.length) by omega, World.took]
  have h := from_inv 0 w.delivered _ [] _ hi (by simpa using hn) (.read [] :: after) (by
    intro s hs p hp
    rcases List.mem_cons.1 hs with rfl | hs
    · simp [Step.pieces] at hp
    · exact ha s hs p hp)
  have hrun : ({ w with content := new } : World).run (.read [] :: after) =
      ({ w with content := new, watcher := { w.watcher with previousSize := 0, reader := some r'.rewind } } : World).run
        (.read [] :: after) := by
    simp only [World.run, List.foldl_cons]
    rw [hstep]
  have hwr : written (.read [] :: after) = written after := by simp [written, Step.pieces]
  rw [hrun]
  rw [hwr] at h
  simpa using h

/-- Four lines, of which one was read and three are staged; the file is rewritten with one line, and later grows. -/
example : (World.run { (World.start [] []).run ([.append [97, 10, 98, 10, 99, 10, 100, 10]] ++ [.read []]) with content := [101, 10] }
    [.read [], .append [102, 10], .read [], .read []]).delivered = [[97], [101], [102]] := by decide +kernel

/-- **C103 is false of the code for a file that is rewritten in place to at least its old size**: nothing tells it from one that grew; the
watcher goes on with what it had staged and then behind it, so lines that are gone are handed over and new ones are not. -/
theorem C103_rewritten_false : ∃ w1 w2 w3 : Watcher,
    (Watcher.mk [] (some { file := 0 }) (some 0) 0 false).readLine 20 (fun _ => fsOf [97, 10, 98, 10]) [] = (.ok 1, [97], w1) ∧
    w1.readLine 20 (fun _ => fsOf [99, 10, 100, 10]) [] = (.ok 1, [98], w2) ∧
    w2.readLine 20 (fun _ => fsOf [99, 10, 100, 10]) [] = (.ok 0, [], w3) := by
  refine ⟨⟨[], some ⟨0, 4, [98, 10]⟩, some 0, 4, false⟩, ⟨[], some ⟨0, 4, []⟩, some 0, 4, false⟩,
    ⟨[], some ⟨0, 4, []⟩, some 0, 4, false⟩, ?_⟩
  decide +kernel

end Verif
