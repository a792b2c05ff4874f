import Verif.Proof.Output

/-! # Sequences of log statements -/

namespace FNLog
open Spec

theorem statement_ok {S : Setup} (hS : Ready S) {a : Call} {ops : List StreamOp} (ha : Sound S a ops) {s : Sys}
    (hl : Live S.cfg S.thread s.ring) (hc : CacheFrom S.env.zone s.cache) :
    (¬ Admitted S.lg a.channelId a.priority a.category a.identify ∧ statement S a ops s = some s) ∨
    (Admitted S.lg a.channelId a.priority a.category a.identify ∧
      ∃ file t s1 s', FileField a.file file ∧ RecordText S.env S.names a ops file t ∧ statement S a ops s = some s' ∧
        Live S.cfg S.thread s'.ring ∧ CacheFrom S.env.zone s'.cache ∧
        Hooked S (headOf S.env S.names a ops file) (hookText S.env.N t) { s with cache := s'.cache } s1 ∧
        s'.hooked = s1.hooked ∧
        s'.ring.out = s.ring.out ++ [(s.ring.out.length,
          cellOf (headOf S.env S.names a ops file) (lineOf S.env.N t))] ∧
        deliver S s.ring.out.length (cellOf (headOf S.env S.names a ops file) (lineOf S.env.N t)) s1.out = some s'.out) := by
  obtain ⟨channels, hshm, hch⟩ := hS.channel
  have hdef : ∃ r, blockInput S.lg a.channelId a.priority a.category a.identify = some r := by
    refine C01_block_input_defined S.lg a.channelId a.priority a.category a.identify ?_
    intro chans h1 ch _ h2
    rw [ha.channel] at h2
    rw [hshm] at h1
    obtain rfl := Option.some.inj h1
    rw [hch] at h2
    obtain rfl := Option.some.inj h2
    exact ha.admission
  obtain ⟨r, hr⟩ := hdef
  have hiff := admitted_iff hr
  cases r with
  | true => exact Or.inl ⟨fun h => absurd (hiff.mpr h) (by simp), refused_statement hr⟩
  | false =>
    refine Or.inr ⟨hiff.mp rfl, ?_⟩
    obtain ⟨file, hf⟩ := ha.fits
    obtain ⟨t, rec, c, e1, e2, e3, e4, e5, e6⟩ := record_fits hS hf hc
    have hnames := hf.names
    obtain ⟨s1, s', d1, d2, d3, d4, d5, d6, d7⟩ := destructOk_live hS (h := headOf S.env S.names a ops file) (r := rec)
      (s := { s with cache := c }) (by omega) e3 e4 hl ⟨hf.args.priority.1, hf.args.priority.2⟩ ha.dispatch
    refine ⟨file, _, s1, s', hf.short, e6, ?_, d3, by rw [d6]; exact e5, by rw [d6]; exact d2, d7, d4, d5⟩
    unfold statement construct
    rw [hr]
    simp only [Option.bind_eq_bind, Option.bind_some, Bool.false_eq_true, if_false]
    rw [e1]
    simp only [Option.bind_some]
    rw [e2]
    simp only [Option.bind_some, destruct]
    exact d1

theorem cells_append (n : Nat) (r q : List (Head × List Char)) : cells n (r ++ q) = cells n r ++ cells (n + r.length) q := by
  induction r generalizing n with
  | nil => rfl
  | cons x r ih =>
    obtain ⟨h, l⟩ := x
    simp only [List.cons_append, cells, ih, List.length_cons]
    rw [show n + 1 + r.length = n + (r.length + 1) by omega]

theorem cells_snd (n : Nat) (recs : List (Head × List Char)) :
    (cells n recs).map Prod.snd = recs.map fun r => cellOf r.1 r.2 := by
  induction recs generalizing n with
  | nil => rfl
  | cons x recs ih =>
    obtain ⟨h, l⟩ := x
    simp only [cells, List.map_cons, ih]

theorem hooked_same {S : Setup} {h : Head} {text : List Char} {s s1 : Sys} (hh : Hooked S h text s s1) {k : Nat}
    (hk : S.hook = false ∨ S.channel.virtualDeviceId ≠ k) {P : List Char → Prop} {t : FileSt} (ht : SameAs P t (view s.out k)) :
    SameAs P t (view s1.out k) := by
  have e : s1.out.dev k = s.out.dev k := by
    rcases hk with hk | hk
    · rw [hh.quiet (Or.inl hk)]
    · by_cases hneg : S.channel.virtualDeviceId < 0
      · rw [hh.quiet (Or.inr hneg)]
      · exact hh.others k (by omega)
  refine same_of_fs ht ?_ ?_ ?_
  · simp only [view, e]
  · simp only [view, e]
  · intro p _
    show s.out.fs p = s1.out.fs p
    rw [hh.fs]

theorem statements_ok {S : Setup} (hS : Ready S) (hap : FilesApart S.fenv S.channel.id S.channel.devices) :
    ∀ {prog : List (Call × List StreamOp)} {s : Sys}, (∀ x ∈ prog, Sound S x.1 x.2) →
    Live S.cfg S.thread s.ring → CacheFrom S.env.zone s.cache → Own S.fenv S.channel.id S.channel.devices s.out →
    ∃ recs s', Logged S prog recs ∧ statements S prog s = some s' ∧
      Live S.cfg S.thread s'.ring ∧ CacheFrom S.env.zone s'.cache ∧ Own S.fenv S.channel.id S.channel.devices s'.out ∧
      s'.ring.out = s.ring.out ++ cells s.ring.out.length recs ∧
      (∀ (k : Nat) (d : Device) (t : FileSt), S.channel.devices[k]? = some d → d.outType = .file →
        (S.hook = false ∨ S.channel.virtualDeviceId ≠ k) → SameAs (FilesOf S.fenv S.channel.id d) t (view s.out k) →
        ∃ taken t', Runs S.fenv S.channel.id d t (handed S.os k d s.ring.out.length recs) taken t' ∧
          SameAs (FilesOf S.fenv S.channel.id d) t' (view s'.out k)) ∧
      (∀ p, Foreign S.fenv S.channel.id S.channel.devices p → s'.out.fs p = s.out.fs p) := by
  intro prog
  induction prog with
  | nil =>
    intro s _ hl hc ho
    exact ⟨[], s, .nil, rfl, hl, hc, ho, by simp [cells], fun k d t _ _ _ hs => ⟨_, _, .nil t, hs⟩, fun _ _ => rfl⟩
  | cons x prog ih =>
    obtain ⟨a, ops⟩ := x
    intro s hp hl hc ho
    rcases statement_ok hS (hp (a, ops) (by simp)) hl hc with ⟨hna, hst⟩ | ⟨hna, file, t, s1, s2, hfile, htext, hst, hl2, hc2, hk, _, hr2, hd2⟩
    · obtain ⟨recs, s', i1, i2, i3⟩ := ih (fun y hy => hp y (by simp [hy])) hl hc ho
      refine ⟨recs, s', .refused hna i1, ?_, i3⟩
      unfold statements
      rw [hst]
      exact i2
    · have ho1 : Own S.fenv S.channel.id S.channel.devices s1.out := by
        intro k d p h1 h2 h3
        rw [hk.handle k] at h3
        exact ho k d p h1 h2 h3
      have hda : deliverAll S (cells s.ring.out.length
          [(headOf S.env S.names a ops file, lineOf S.env.N t)]) s1.out = some s2.out := by
        simp only [cells, deliverAll, hd2, Option.bind_eq_bind, Option.bind_some]
      obtain ⟨t1, t2, t3⟩ := deliverAll_tracks hap ho1 hda
      obtain ⟨recs, s', i1, i2, i3, i4, i5, i6, i7, i8⟩ := ih (fun y hy => hp y (by simp [hy])) hl2 hc2 t1
      have hlen : s2.ring.out.length = s.ring.out.length + 1 := by rw [hr2]; simp
      refine ⟨_, s', .admitted hna hfile htext i1, ?_, i3, i4, i5, ?_, ?_, ?_⟩
      · unfold statements
        rw [hst]
        exact i2
      · rw [i6, hlen, hr2]
        simp [cells]
      · intro k d v hkd hfd hv hs
        obtain ⟨tk1, u, r1, q1⟩ := t2 k d v hkd hfd (hooked_same hk hv hs)
        obtain ⟨tk2, w, r2, q2⟩ := i7 k d u hkd hfd hv q1
        rw [hlen] at r2
        refine ⟨tk1 ++ tk2, w, ?_, q2⟩
        have key : ∀ {x y z : FileSt} {l1 l2 k1 k2 : List FileLog}, Runs S.fenv S.channel.id d x l1 k1 y →
            Runs S.fenv S.channel.id d y l2 k2 z → Runs S.fenv S.channel.id d x (l1 ++ l2) (k1 ++ k2) z := by
          intro x y z l1 l2 k1 k2 h1 h2
          induction h1 with
          | nil => exact h2
          | taken g1 g2 _ ih => exact .taken g1 g2 (ih h2)
          | dropped g1 g2 _ ih => exact .dropped g1 g2 (ih h2)
        have := key r1 r2
        have e : handed S.os k d s.ring.out.length
            [(headOf S.env S.names a ops file, lineOf S.env.N t)] ++
              handed S.os k d (s.ring.out.length + 1) recs =
            handed S.os k d s.ring.out.length
              ((headOf S.env S.names a ops file, lineOf S.env.N t) :: recs) := by
          simp only [handed]
          split <;> rfl
        rw [e] at this
        exact this
      · intro p hp'
        have hf := hk.fs
        rw [i8 p hp', t3 p hp', hf]

/-- Screen and network, without a condition on the files. -/
theorem statements_emit {S : Setup} (hS : Ready S) :
    ∀ {prog : List (Call × List StreamOp)} {s : Sys}, (∀ x ∈ prog, Sound S x.1 x.2) →
    Live S.cfg S.thread s.ring → CacheFrom S.env.zone s.cache →
    ∃ recs s', Logged S prog recs ∧ statements S prog s = some s' ∧
      s'.ring.out = s.ring.out ++ cells s.ring.out.length recs ∧ Emitted S s.ring.out.length recs s.out s'.out := by
  intro prog
  induction prog with
  | nil =>
    intro s _ hl hc
    exact ⟨[], s, .nil, rfl, by simp [cells], Emitted.nil _ _ _⟩
  | cons x prog ih =>
    obtain ⟨a, ops⟩ := x
    intro s hp hl hc
    rcases statement_ok hS (hp (a, ops) (by simp)) hl hc with ⟨hna, hst⟩ | ⟨hna, file, t, s1, s2, hfile, htext, hst, hl2, hc2, hk, _, hr2, hd2⟩
    · obtain ⟨recs, s', i1, i2, i3⟩ := ih (fun y hy => hp y (by simp [hy])) hl hc
      refine ⟨recs, s', .refused hna i1, ?_, i3⟩
      unfold statements
      rw [hst]
      exact i2
    · have hda : deliverAll S (cells s.ring.out.length
          [(headOf S.env S.names a ops file, lineOf S.env.N t)]) s1.out = some s2.out := by
        simp only [cells, deliverAll, hd2, Option.bind_eq_bind, Option.bind_some]
      obtain ⟨recs, s', i1, i2, i6, i9⟩ := ih (fun y hy => hp y (by simp [hy])) hl2 hc2
      have hlen : s2.ring.out.length = s.ring.out.length + 1 := by rw [hr2]; simp
      refine ⟨_, s', .admitted hna hfile htext i1, ?_, ?_, ?_⟩
      · unfold statements
        rw [hst]
        exact i2
      · rw [i6, hlen, hr2]
        simp [cells]
      · have hpr : 0 ≤ a.priority ∧ a.priority ≤ 6 := by
          obtain ⟨_, hf⟩ := (hp (a, ops) (by simp)).fits
          exact hf.args.priority
        have em := ((Emitted.hooked hk s.ring.out.length).trans (Emitted.deliverAll (by
          intro r hr
          simp only [List.mem_cons, List.not_mem_nil, or_false] at hr
          subst hr
          exact hpr) hda)).trans (q := recs) (o2 := s'.out) (by
            simp only [List.nil_append, List.length_cons, List.length_nil, Nat.zero_add]
            rw [← hlen]
            exact i9)
        exact em

/-! ## A device that writes one file -/

theorem simple_runs {E : FileEnv} {ch : Int} {d : Device} (h1 : d.cfg.rollback ≤ 0) (h2 : d.cfg.limitSize ≤ 0)
    (h3 : d.cfg.rolldaily = 0) (h4 : d.cfg.rollhourly = 0) {F : List Char} (hlen : F.length < 250)
    (hF : ∀ ts, fullPath E.proc (E.tm ts) E.fuel d ch = some F) :
    ∀ {logs taken : List FileLog} {s s' : FileSt}, Runs E ch d s logs taken s' →
    (∀ log ∈ logs, log.opens = true ∧ log.short = none ∧ log.content ≠ []) →
    (s.handle = some F ∨ s.handle = none ∧ ∀ log ∈ logs, s.logs DEVICE_LOG_LAST_TRY_CREATE_TIMESTAMP + 5 ≤ log.ts) →
    taken = logs ∧ (s'.fs F).getD [] = (s.fs F).getD [] ++ logs.map (·.content) ∧
      (logs ≠ [] → s'.fs F ≠ none ∧ s'.handle = some F) := by
  have nobig : ∀ s log, ¬ TooBig d s log := fun s log h => by have := h.1; omega
  have noper : ∀ s log, ¬ OtherPeriod d s log := by
    rintro s log (h | h)
    · exact h.1 h3
    · exact h.2.1 h4
  have step : ∀ {s s' : FileSt} {log : FileLog}, fileDevice E ch d log s = some s' →
      log.opens = true → log.short = none → log.content ≠ [] →
      (s.handle = some F ∨ s.handle = none ∧ s.logs DEVICE_LOG_LAST_TRY_CREATE_TIMESTAMP + 5 ≤ log.ts) →
      Taken E ch d s log ∧ s'.handle = some F ∧ s'.fs F = some ((s.fs F).getD [] ++ [log.content]) := by
    intro s s' log h ho hs hne hh
    have hw : ∀ u : FileSt, (writeFile log F u).fs F = some ((u.fs F).getD [] ++ [log.content]) ∧
        (writeFile log F u).handle = u.handle := by
      intro u
      unfold writeFile
      rw [if_neg hne, hs]
      simp [Fs.set]
    rcases hh with hh | ⟨hh, ht⟩
    · have hst : Stays d s log := ⟨by rw [hh]; simp, nobig s log, noper s log⟩
      refine ⟨Or.inl hst, ?_⟩
      cases fileDevice_cases h with
      | skipped hn _ _ => rw [hh] at hn; exact absurd hn (by simp)
      | stays path l hp _ _ =>
        rw [hh] at hp
        obtain rfl := Option.some.inj hp
        exact ⟨(hw s).2.trans hh, (hw s).1⟩
      | long path ht _ _ => exact absurd hst ht.1
      | refused path ht _ _ _ => exact absurd hst ht.1
      | opens path s1 l ht _ _ _ _ _ => exact absurd hst ht.1
    · have htr : Tries d s log := ⟨fun hst => hst.1 hh, Or.inr ht⟩
      refine ⟨Or.inr ⟨htr, ho, F, hF _, hlen⟩, ?_⟩
      cases fileDevice_cases h with
      | skipped _ hn _ => exact absurd htr hn
      | stays path l hp _ _ => rw [hh] at hp; exact absurd hp (by simp)
      | long path _ hp hlong =>
        rw [hF] at hp
        obtain rfl := Option.some.inj hp
        omega
      | refused path _ _ _ hop => rw [ho] at hop; exact absurd hop (by simp)
      | opens path s1 l _ hp _ _ hs1 _ =>
        rw [hF] at hp
        obtain rfl := Option.some.inj hp
        have hrot : rotate d (limitOut d s.logs log.content.length) F s.fs = s.fs := by
          unfold rotate
          rw [if_neg (by omega)]
        rw [hrot] at hs1
        have e1 : s1.fs F = some ((s.fs F).getD []) ∧ s1.handle = some F := by
          rw [hs1]
          unfold openFile
          rw [if_neg (by rw [ho]; decide)]
          simp [Fs.set]
        refine ⟨(hw s1).2.trans e1.2, ?_⟩
        show (writeFile log F s1).fs F = _
        rw [(hw s1).1, e1.1]
        rfl
  intro logs taken s s' hr
  induction hr with
  | nil s => intro _ _; exact ⟨rfl, by simp, fun h => absurd rfl h⟩
  | @taken s s1 s2 log logs taken g1 g2 hrest ih =>
    intro ha hh
    obtain ⟨a1, a2, a3⟩ := ha log (by simp)
    obtain ⟨_, f2, f3⟩ := step g1 a1 a2 a3 (hh.imp id fun h => ⟨h.1, h.2 log (by simp)⟩)
    obtain ⟨j1, j2, j3⟩ := ih (fun l hl => ha l (by simp [hl])) (Or.inl f2)
    refine ⟨by rw [j1], ?_, fun _ => ?_⟩
    · rw [j2, f3]
      simp
    · by_cases hn : logs = []
      · subst hn
        cases hrest
        exact ⟨by rw [f3]; simp, f2⟩
      · exact j3 hn
  | @dropped s s1 s2 log logs taken g1 g2 hrest ih =>
    intro ha hh
    obtain ⟨a1, a2, a3⟩ := ha log (by simp)
    obtain ⟨f1, _, _⟩ := step g1 a1 a2 a3 (hh.imp id fun h => ⟨h.1, h.2 log (by simp)⟩)
    exact absurd f1 g2

end FNLog
