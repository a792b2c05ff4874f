import Verif.Proof.Offset

/-! # Two runs of a channel side by side -/

namespace FNLog
open Spec Ring

/-- Two states of a channel that differ in foreign files, screen, network, and statistics larger by `x` only. -/
structure Twin (S : Setup) (x : Nat → Fields) (s c : Crew) : Prop where
  ring : c.ring = s.ring
  dev : ∀ k, c.out.dev k = (s.out.dev k).plus (x k)
  pos : c.pos = s.pos
  made : c.made = s.made
  visits : c.visits = s.visits
  caches : c.caches = s.caches
  files : ∀ d ∈ S.channel.devices, d.outType = .file → AgreeOn (FilesOf S.fenv S.channel.id d) c.out.fs s.out.fs

/-- What an event did to screen, network and foreign files in both. -/
structure Delta (S : Setup) (s s' c c' : Crew) (x : List (List Char)) (y : List Datagram) : Prop where
  screen : s'.out.screen = s.out.screen ++ x
  screen' : c'.out.screen = c.out.screen ++ x
  net : s'.out.net = s.out.net ++ y
  net' : c'.out.net = c.out.net ++ y
  foreign : ∀ p, Foreign S.fenv S.channel.id S.channel.devices p → c'.out.fs p = c.out.fs p

theorem Delta.same {S : Setup} {s s' c c' : Crew} (h1 : s'.out = s.out) (h2 : c'.out = c.out) : Delta S s s' c c' [] [] :=
  ⟨by rw [h1, List.append_nil], by rw [h2, List.append_nil], by rw [h1, List.append_nil], by rw [h2, List.append_nil],
    fun _ _ => by rw [h2]⟩

theorem enter_twin {S : Setup} {x : Nat → Fields} (hx : ∀ k, Unread (x k)) {k : Nat} {d : Device}
    (hd : S.channel.devices[k]? = some d) {os : Os} {log : DevLog} {o o' u : OutSt}
    (hown : Own S.fenv S.channel.id S.channel.devices o) (hdev : ∀ k, u.dev k = (o.dev k).plus (x k))
    (hfs : ∀ d ∈ S.channel.devices, d.outType = .file → AgreeOn (FilesOf S.fenv S.channel.id d) u.fs o.fs)
    (h : enterProcDevice S.fenv S.channel.id k d os log o = some o') :
    ∃ u' y z, enterProcDevice S.fenv S.channel.id k d os log u = some u' ∧ (∀ k, u'.dev k = (o'.dev k).plus (x k)) ∧
      (∀ d ∈ S.channel.devices, d.outType = .file → AgreeOn (FilesOf S.fenv S.channel.id d) u'.fs o'.fs) ∧
      o'.screen = o.screen ++ y ∧ u'.screen = u.screen ++ y ∧ o'.net = o.net ++ z ∧ u'.net = u.net ++ z ∧
      (∀ p, Foreign S.fenv S.channel.id S.channel.devices p → u'.fs p = u.fs p) := by
  have hmem : d ∈ S.channel.devices := List.mem_of_getElem? hd
  have hp := enter_plus (hx k) S.fenv S.channel.id k d os log o
  rw [h, Option.map_some] at hp
  obtain ⟨v, v1, v2, v3, v4, v5⟩ : ∃ v, v = o.plus k (x k) ∧ v.dev k = (o.dev k).plus (x k) ∧ v.fs = o.fs ∧
    v.screen = o.screen ∧ v.net = o.net := ⟨_, rfl, plus_dev _ _ _, rfl, rfl, rfl⟩
  obtain ⟨v', w1, w2, w3, w4, w5⟩ : ∃ v, v = o'.plus k (x k) ∧ v.dev k = (o'.dev k).plus (x k) ∧ v.fs = o'.fs ∧
    v.screen = o'.screen ∧ v.net = o'.net := ⟨_, rfl, plus_dev _ _ _, rfl, rfl, rfl⟩
  rw [← v1, ← w1] at hp
  have hhand : (v.dev k).handle = (o.dev k).handle := by rw [v2]; rfl
  obtain ⟨u', y, z, c1, c2, c3, c4, c5, c6, c7, c8⟩ := enter_congr (u := u) (by rw [hdev k, v2])
    (fun hf => ⟨fun p hp => by rw [v3]; exact (hfs d hmem hf p hp).symm, fun p hp => hown k d p hd hf (hhand ▸ hp)⟩) hp
  rw [w2] at c2
  rw [w4, v4] at c3
  rw [w5, v5] at c5
  rw [w3] at c7
  have hoff : ∀ p, ¬ (d.outType = .file ∧ FilesOf S.fenv S.channel.id d p) → o'.fs p = o.fs p := by
    obtain ⟨w, _, _, e1, _, _, _, _, _, _, e8⟩ := enter_congr (u := o) rfl
      (fun hf => ⟨fun _ _ => rfl, fun p hp => hown k d p hd hf hp⟩) h
    rw [h] at e1
    obtain rfl := Option.some.inj e1
    exact e8
  refine ⟨u', y, z, c1, ?_, ?_, c3, c4, c5, c6, fun p hp => c8 p fun z => hp d hmem z.1 z.2⟩
  · intro j
    by_cases e : j = k
    · subst e; exact c2
    · rw [enter_other c1 e, enter_other h e, hdev j]
  · intro a ha hf p hp
    by_cases hz : d.outType = .file ∧ FilesOf S.fenv S.channel.id d p
    · exact (c7 hz.1 p hz.2).symm
    · rw [c8 p hz, hoff p hz]
      exact hfs a ha hf p hp

theorem Twin.act {S : Setup} {w : Nat → Fields} (hw : ∀ k, Unread (w k)) {o : OutSt} {s s' c : Crew}
    (h : CrewInv S o s) (ht : Twin S w s c) {e : Act} (hs : FNLog.act S s e = some s') :
    ∃ c' x y, FNLog.act S c e = some c' ∧ Twin S w s' c' ∧ Delta S s s' c c' x y := by
  have keep : ∀ (r : St Piece) (ca : Nat → DateCache) (m : List (Nat × Call × List StreamOp)),
      s' = { s with ring := r, caches := ca, made := m } →
      FNLog.act S c e = some { c with ring := r, caches := ca, made := m } →
      ∃ c' x y, FNLog.act S c e = some c' ∧ Twin S w s' c' ∧ Delta S s s' c c' x y := by
    intro r ca m h1 h2
    subst h1
    exact ⟨_, [], [], h2, ⟨rfl, ht.dev, ht.pos, rfl, ht.visits, rfl, ht.files⟩, .same rfl rfl⟩
  cases e with
  | started =>
    obtain rfl := Option.some.inj hs
    exact keep _ _ _ rfl (by simp only [FNLog.act]; rw [ht.ring, ← ht.caches, ← ht.made])
  | closing =>
    obtain rfl := Option.some.inj hs
    exact keep _ _ _ rfl (by simp only [FNLog.act]; rw [ht.ring, ← ht.caches, ← ht.made])
  | stop =>
    obtain rfl := Option.some.inj hs
    exact keep _ _ _ rfl (by simp only [FNLog.act]; rw [ht.ring, ← ht.caches, ← ht.made])
  | dates t d =>
    obtain rfl := Option.some.inj hs
    exact keep _ _ _ rfl (by simp only [FNLog.act]; rw [← ht.ring, ht.caches, ← ht.made])
  | log t a ops =>
    simp only [FNLog.act, beginLog] at hs
    have e1 : c.ring.pc t = s.ring.pc t := by rw [ht.ring]
    split at hs
    · rename_i hpc
      rw [hpc] at e1
      split at hs
      · rename_i hr
        cases hf : formed S a ops (s.caches t) with
        | none => rw [hf] at hs; exact absurd hs (by simp)
        | some x =>
          rw [hf] at hs
          simp only [Option.bind_eq_bind, Option.bind_some] at hs
          obtain rfl := Option.some.inj hs
          refine keep _ _ _ rfl ?_
          simp only [FNLog.act, beginLog, e1]
          rw [if_pos (by rw [ht.ring]; exact hr), ht.caches, hf, ht.ring, ht.made]
          rfl
      · rename_i hr
        obtain rfl := Option.some.inj hs
        refine keep s.ring s.caches s.made rfl ?_
        simp only [FNLog.act, beginLog, e1]
        rw [if_neg (by rw [ht.ring]; exact hr), ← ht.ring, ← ht.caches, ← ht.made]
    · rename_i hpc
      obtain rfl := Option.some.inj hs
      refine keep s.ring s.caches s.made rfl ?_
      simp only [FNLog.act, beginLog]
      split
      · rename_i hpc'
        exact absurd (e1.symm.trans hpc') (fun z => hpc z)
      · rw [← ht.ring, ← ht.caches, ← ht.made]
  | run t =>
    simp only [FNLog.act, runThread] at hs
    split at hs
    · rename_i k hpc
      split at hs
      · rename_i d hd
        unfold dispatchNext at hs
        simp only [Option.bind_eq_bind, Option.bind_eq_some_iff] at hs
        obtain ⟨⟨hr, text⟩, h1, b, h2, o1, h3, hs⟩ := hs
        obtain rfl := Option.some.inj hs
        have hent : ∃ u' x y, enterIf S b (visitsOf (s.pos t) s.visits).length (s.pos t) d hr text c.out = some u' ∧
            (∀ k, u'.dev k = (o1.dev k).plus (w k)) ∧
            (∀ d ∈ S.channel.devices, d.outType = .file → AgreeOn (FilesOf S.fenv S.channel.id d) u'.fs o1.fs) ∧
            o1.screen = s.out.screen ++ x ∧ u'.screen = c.out.screen ++ x ∧ o1.net = s.out.net ++ y ∧
            u'.net = c.out.net ++ y ∧ (∀ p, Foreign S.fenv S.channel.id S.channel.devices p → u'.fs p = c.out.fs p) := by
          unfold enterIf at h3 ⊢
          cases b with
          | false =>
            obtain rfl := Option.some.inj h3
            exact ⟨c.out, [], [], rfl, ht.dev, ht.files, (List.append_nil _).symm, (List.append_nil _).symm,
              (List.append_nil _).symm, (List.append_nil _).symm, fun _ _ => rfl⟩
          | true => exact enter_twin hw hd h.own ht.dev ht.files h3
        obtain ⟨u', x, y, g1, g2, g3, g4, g5, g6, g7, g8⟩ := hent
        refine ⟨{ c with out := u', pos := upd c.pos t (c.pos t + 1), visits := c.visits ++ [⟨c.pos t, k, hr, text⟩] },
          x, y, ?_, ⟨ht.ring, g2, ?_, ht.made, ?_, ht.caches, g3⟩, ⟨g4, g5, g6, g7, g8⟩⟩
        · simp only [FNLog.act, runThread, ht.ring, hpc, ht.pos, hd, dispatchNext, ht.visits, h1, h2, g1, Option.bind_eq_bind,
            Option.bind_some]
        · show upd c.pos t (c.pos t + 1) = upd s.pos t (s.pos t + 1)
          rw [ht.pos]
        · show c.visits ++ [_] = s.visits ++ [_]
          rw [ht.visits, ht.pos]
      · rename_i hd
        obtain rfl := Option.some.inj hs
        refine ⟨{ c with ring := stepT S.cfg s.ring t, pos := upd s.pos t 0 }, [], [], ?_,
          ⟨rfl, ht.dev, rfl, ht.made, ht.visits, ht.caches, ht.files⟩, .same rfl rfl⟩
        simp only [FNLog.act, runThread, ht.ring, hpc, ht.pos, hd]
    · rename_i hne
      obtain rfl := Option.some.inj hs
      refine keep _ _ _ rfl ?_
      simp only [FNLog.act, runThread, ht.ring]
      rw [← ht.caches, ← ht.made]

end FNLog
