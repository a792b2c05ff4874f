import Verif.Proof.InodeView

/-! # Devices that share files -/

namespace FNLog
open Spec

/-! ## All lines -/

theorem whole_run {U : Nat → Seat} {s s' : Desk} {es : List DiskEv} {t : List (Nat × FileLog)}
    (h : DeskLogs U s es t s') (hk : SoundDisk s.disk) (hh : Held s) :
    SoundDisk s'.disk ∧ Held s' ∧ ∃ w : List Stamp, w.map (fun x => (x.user, x.text)) = texts t ∧
      (∀ i, s'.disk.data i = s.disk.data i ++ intoNode i w) ∧
      ((∀ x ∈ t, Valid x.2) → ∀ u, (s'.holder u).logs DEVICE_LOG_TOTAL_WRITE_LINE =
        (s.holder u).logs DEVICE_LOG_TOTAL_WRITE_LINE + (t.filter (·.1 = u)).length) := by
  induction h with
  | nil s => exact ⟨hk, hh, [], rfl, fun i => by simp [intoNode], fun _ u => by simp⟩
  | @taken s s1 s2 u a l es t h1 hf _ ih =>
    obtain ⟨p1, p2, _, p4⟩ := log_step hk hh h1
    obtain ⟨q1, q2, w, q3, q4, q5⟩ := ih p1 p2
    rcases p4 with ⟨_, i, _, hd, hl⟩ | ⟨hn, _⟩
    · refine ⟨q1, q2, (block l).map (fun b => ⟨u, i, b⟩) ++ w, ?_, fun j => ?_, fun hv v => ?_⟩
      · simp only [List.map_append, List.map_map, q3, texts, List.flatMap_cons]
        rfl
      · rw [q4 j, hd j, List.append_assoc]
        congr 1
        simp only [intoNode, List.filter_append, List.map_append]
        congr 1
        by_cases hj : j = i
        · subst hj
          rw [if_pos rfl, List.filter_eq_self.mpr (by simp), List.map_map]
          simp [Function.comp_def]
        · rw [if_neg hj, List.filter_eq_nil_iff.mpr]
          · rfl
          · intro x hx
            obtain ⟨b, _, rfl⟩ := List.mem_map.mp hx
            simpa using fun e => hj e.symm
      · rw [q5 (fun x hx => hv x (List.mem_cons_of_mem _ hx)) v, hl (hv _ List.mem_cons_self) v]
        by_cases hvu : v = u
        · subst hvu
          simp
          omega
        · rw [if_neg hvu, List.filter_cons_of_neg (by simpa using fun e => hvu e.symm)]
          omega
    · exact absurd hf hn
  | dropped h1 hf _ ih =>
    obtain ⟨p1, p2, _, p4⟩ := log_step hk hh h1
    obtain ⟨q1, q2, w, q3, q4, q5⟩ := ih p1 p2
    rcases p4 with ⟨hn, _⟩ | ⟨_, hd, hl⟩
    · exact absurd hn hf
    · exact ⟨q1, q2, w, q3, fun i => by rw [q4 i, hd], fun hv u => by rw [q5 hv u, hl u]⟩
  | other he h1 _ ih =>
    obtain ⟨p1, p2, p3, p4⟩ := other_step he hk h1
    obtain ⟨q1, q2, w, q3, q4, q5⟩ := ih p1 (fun v i hi => Nat.lt_of_lt_of_le (hh v i (by rw [← p3]; exact hi)) p2)
    exact ⟨q1, q2, w, q3, fun i => by rw [q4 i, p4], fun hv u => by rw [q5 hv u, p3]⟩

theorem account_try {f g : Fields} {log : FileLog} (hv : Valid log)
    (h : accountFile f log.priority log.content.length = some g) :
    g DEVICE_LOG_LAST_TRY_CREATE_TIMESTAMP = f DEVICE_LOG_LAST_TRY_CREATE_TIMESTAMP := by
  rw [accountFile_eq hv] at h
  obtain rfl := Option.some.inj h
  exact accounted_other (by decide) (by decide)

theorem taken_step {U : Nat → Seat} {u : Nat} {a : DiskSays} {l : FileLog} {s s' : Desk} (hc : CanOpen (U u) l)
    (h0 : ∀ v, (s.holder v).logs DEVICE_LOG_LAST_TRY_CREATE_TIMESTAMP = 0) (h : deskStep U (.log u a l) s = some s') :
    Finds (U u) (s.holder u) l ∧ ∀ v, (s'.holder v).logs DEVICE_LOG_LAST_TRY_CREATE_TIMESTAMP = 0 := by
  obtain ⟨hcase, ho⟩ := desk_log h
  obtain ⟨hop, hts, hv, p, hp, hl⟩ := hc
  refine ⟨?_, fun v => ?_⟩
  · by_cases hn : (iClose (U u).device l (s.holder u)).handle = none
    · refine Or.inr ⟨tries_iff.mpr ⟨hn, fun _ => ?_⟩, hop, p, hp, hl⟩
      rw [h0 u]
      omega
    · exact Or.inl (stays_iff.mpr hn)
  · by_cases hvu : v = u
    · subst hvu
      have hv0 := h0 v
      generalize s'.disk = k', s'.holder v = h' at hcase
      cases hcase with
      | skipped _ hw => exact hv0
      | stays i l' hi hcl hacc => exact (account_try hv hacc).trans hv0
      | long path hn _ hp' hl' =>
        rw [hp] at hp'
        obtain rfl := Option.some.inj hp'
        omega
      | refused path _ _ _ _ hop' => rw [hop] at hop'; cases hop'
      | opens path s1 l' _ _ _ _ hop' hs1 _ _ hacc =>
        refine (account_try hv hacc).trans ?_
        rw [hs1]
        unfold iOpenFile
        rw [if_neg (by rw [hop]; nofun)]
        rfl
    · rw [ho v hvu]; exact h0 v

theorem other_holder {U : Nat → Seat} {e : DiskEv} {s s' : Desk} (he : ∀ u a l, e ≠ .log u a l)
    (h : deskStep U e s = some s') : s'.holder = s.holder := by
  cases e with
  | log u a l => exact absurd rfl (he u a l)
  | rename a b => obtain rfl := Option.some.inj h; rfl
  | remove p => obtain rfl := Option.some.inj h; rfl
  | create p => obtain rfl := Option.some.inj h; rfl

theorem all_other {e : DiskEv} (he : ∀ u a l, e ≠ .log u a l) (es : List DiskEv) : allLogs (e :: es) = allLogs es := by
  cases e with
  | log u a l => exact absurd rfl (he u a l)
  | rename a b => rfl
  | remove p => rfl
  | create p => rfl

theorem all_taken {U : Nat → Seat} {s s' : Desk} {es : List DiskEv} {t : List (Nat × FileLog)}
    (h : DeskLogs U s es t s') (hc : ∀ x ∈ allLogs es, CanOpen (U x.1) x.2)
    (h0 : ∀ v, (s.holder v).logs DEVICE_LOG_LAST_TRY_CREATE_TIMESTAMP = 0) : t = allLogs es := by
  induction h with
  | nil s => rfl
  | @taken s s1 s2 u a l es t h1 _ h2 ih =>
    obtain ⟨_, h01⟩ := taken_step (hc (u, l) List.mem_cons_self) h0 h1
    simp only [allLogs]
    rw [ih (fun x hx => hc x (List.mem_cons_of_mem _ hx)) h01]
  | @dropped s s1 s2 u a l es t h1 hf h2 ih => exact absurd (taken_step (hc (u, l) List.mem_cons_self) h0 h1).1 hf
  | other he h1 _ ih =>
    rw [all_other he] at hc ⊢
    exact ih hc (by rw [other_holder he h1]; exact h0)

/-! ## Sharing without rotation -/

theorem harmless_rotate {U : Nat → Seat} {u : Nat} {a : DiskSays} {l : FileLog} (h : Harmless U (.log u a l)) (lim : Bool)
    (p : List Char) (k : Disk) : iRotate a (U u).device lim p k = k := by
  unfold iRotate
  rcases h with ⟨h1, h2⟩ | h
  · rw [if_neg (by omega)]
  · split
    · split
      · exact fail_rollback h _ _ _ _
      · rfl
    · rfl

theorem append_at {k k' : Disk} (hk : SoundDisk k) {p : List Char} {i : Nat} {b : Blocks} (hn : k'.node = k.node)
    (hp : k.node p = some i) (hd : ∀ j, k'.data j = k.data j ++ if j = i then b else []) (q : List Char) :
    (k'.fs q).getD [] = (k.fs q).getD [] ++ if p = q then b else [] := by
  unfold Disk.fs
  rw [hn]
  by_cases hq : p = q
  · subst hq
    rw [hp]
    simp [hd]
  · rw [if_neg hq]
    cases hx : k.node q with
    | none => simp
    | some j =>
      have : j ≠ i := by
        rintro rfl
        exact hq (hk.one p q j hp hx)
      simp [hd, this]

theorem open_same {k : Disk} (hk : SoundDisk k) (p q : List Char) :
    ((k.openAppend p).2.fs q).getD [] = (k.fs q).getD [] := by
  rw [fs_open hk]
  unfold Fs.set
  split
  · rename_i h; rw [h]; rfl
  · rfl

theorem shared_log {U : Nat → Seat} {name : Nat → List Char} {u : Nat} {a : DiskSays} {l : FileLog} {s s' : Desk}
    (hk : SoundDisk s.disk) (hm : Harmless U (.log u a l))
    (hp : fullPath (U u).env.proc ((U u).env.tm l.ts) (U u).env.fuel (U u).device (U u).channel = some (name u))
    (hn : AtName name s) (h : deskStep U (.log u a l) s = some s') :
    AtName name s' ∧ (∀ q i, s.disk.node q = some i → s'.disk.node q = some i) ∧
    (Finds (U u) (s.holder u) l → ∀ q, (s'.disk.fs q).getD [] = (s.disk.fs q).getD [] ++ if name u = q then block l else []) ∧
    (¬ Finds (U u) (s.holder u) l → ∀ q, (s'.disk.fs q).getD [] = (s.disk.fs q).getD []) := by
  obtain ⟨hcase, ho⟩ := desk_log h
  have key : (∀ q i, s.disk.node q = some i → s'.disk.node q = some i) ∧
      (∀ i, (s'.holder u).handle = some i → s'.disk.node (name u) = some i) ∧
      (Finds (U u) (s.holder u) l → ∀ q, (s'.disk.fs q).getD [] = (s.disk.fs q).getD [] ++ if name u = q then block l else []) ∧
      (¬ Finds (U u) (s.holder u) l → ∀ q, (s'.disk.fs q).getD [] = (s.disk.fs q).getD []) := by
    have hnu := hn u
    generalize s'.disk = k', s'.holder u = h' at hcase
    cases hcase with
    | skipped h1 h2 =>
      refine ⟨fun _ _ x => x, hnu, fun hf => ?_, fun _ _ => rfl⟩
      rcases hf with hs | ⟨ht, _⟩
      · exact absurd (by simp [h1]) hs.1
      · have := (tries_iff.mp ht).2 h1
        omega
    | stays i l' hi hcl hacc =>
      refine ⟨fun q j hq => by rw [iWrite_node]; exact hq, fun j hj => ?_, fun _ q => ?_, fun hx => ?_⟩
      · rw [iWrite_node]
        exact hnu j (iWrite_handle _ _ _ _ hj)
      · exact append_at hk (iWrite_node l i _) (hnu i hi) (fun j => iWrite_data l i _ j) q
      · exact absurd (Or.inl (stays_iff.mpr (by rw [hcl, hi]; nofun))) hx
    | long path hx hw hp' hl =>
      refine ⟨fun _ _ x => x, fun i hi => absurd (hx.symm.trans hi) (by nofun), fun hf => ?_, fun _ _ => rfl⟩
      rcases hf with hs | ⟨_, _, p2, hp2, hl2⟩
      · exact absurd hx (stays_iff.mp hs)
      · rw [hp'] at hp2
        obtain rfl := Option.some.inj hp2
        omega
    | refused path hx hw hp' hl hop =>
      rw [harmless_rotate hm]
      refine ⟨fun _ _ x => x, fun i hi => absurd (hx.symm.trans hi) (by nofun), fun hf => ?_, fun _ _ => rfl⟩
      rcases hf with hs | ⟨_, ho2, _⟩
      · exact absurd hx (stays_iff.mp hs)
      · rw [hop] at ho2; cases ho2
    | opens path s1 l' hx hw hp' hl hop hs1 h1 h2 hacc =>
      rw [harmless_rotate hm] at h1 h2 ⊢
      rw [hp] at hp'
      obtain rfl := Option.some.inj hp'
      have hnode : s1.1.node (name u) = some (s.disk.openAppend (name u)).1 := by rw [h1]; exact open_node _ _
      have hks : SoundDisk s1.1 := by rw [h1]; exact open_sound hk _
      refine ⟨fun q i hq => ?_, fun i hi => ?_, fun _ q => ?_, fun hx' => ?_⟩
      · rw [iWrite_node, h1]; exact open_keeps _ _ hq
      · rw [iWrite_node]
        have := iWrite_handle _ _ _ _ hi
        rw [h2] at this
        rw [hnode, this]
      · rw [append_at hks (iWrite_node l _ s1) hnode (fun j => iWrite_data l _ s1 j) q, h1, open_same hk]
      · exact absurd (Or.inr ⟨tries_iff.mpr ⟨hx, hw⟩, hop, name u, hp, hl⟩) hx'
  refine ⟨fun v i hv => ?_, key.1, key.2.2⟩
  by_cases hvu : v = u
  · subst hvu; exact key.2.1 i hv
  · rw [ho v hvu] at hv
    exact key.1 _ _ (hn v i hv)

theorem shared_run {U : Nat → Seat} {name : Nat → List Char} {s s' : Desk} {es : List DiskEv} {t : List (Nat × FileLog)}
    (h : DeskLogs U s es t s') (hm : ∀ e ∈ es, Harmless U e)
    (hp : ∀ x ∈ allLogs es, fullPath (U x.1).env.proc ((U x.1).env.tm x.2.ts) (U x.1).env.fuel (U x.1).device
      (U x.1).channel = some (name x.1))
    (hk : SoundDisk s.disk) (hh : Held s) (hn : AtName name s) (q : List Char) :
    (s'.disk.fs q).getD [] = (s.disk.fs q).getD [] ++ linesInto name q t := by
  induction h with
  | nil s => simp [linesInto]
  | @taken s s1 s2 u a l es t h1 hf _ ih =>
    obtain ⟨p1, p2, _⟩ := log_step hk hh h1
    obtain ⟨q1, _, q3, _⟩ := shared_log hk (hm _ List.mem_cons_self) (hp (u, l) List.mem_cons_self) hn h1
    rw [ih (fun e he => hm e (List.mem_cons_of_mem _ he)) (fun x hx => hp x (List.mem_cons_of_mem _ hx)) p1 p2 q1,
      q3 hf q, List.append_assoc]
    rfl
  | @dropped s s1 s2 u a l es t h1 hf _ ih =>
    obtain ⟨p1, p2, _⟩ := log_step hk hh h1
    obtain ⟨q1, _, _, q4⟩ := shared_log hk (hm _ List.mem_cons_self) (hp (u, l) List.mem_cons_self) hn h1
    rw [ih (fun e he => hm e (List.mem_cons_of_mem _ he)) (fun x hx => hp x (List.mem_cons_of_mem _ hx)) p1 p2 q1,
      q4 hf q]
  | @other s s1 s2 e es t he h1 _ ih =>
    obtain ⟨p1, p2, p3, _⟩ := other_step he hk h1
    have hm1 := hm e List.mem_cons_self
    rw [all_other he] at hp
    have hc : ∃ p, e = .create p := by
      cases e with
      | log u a l => exact absurd rfl (he u a l)
      | rename a b => exact hm1.elim
      | remove p => exact hm1.elim
      | create p => exact ⟨p, rfl⟩
    obtain ⟨p, rfl⟩ := hc
    obtain rfl := Option.some.inj h1
    rw [ih (fun e he => hm e (List.mem_cons_of_mem _ he)) hp p1
      (fun v i hi => Nat.lt_of_lt_of_le (hh v i hi) p2) (fun v i hi => open_keeps _ _ (hn v i hi)), open_same hk]

/-! ## Files without a name -/

theorem icase_nameless {E : FileEnv} {ch : Int} {d : Device} {a : DiskSays} {log : FileLog} {k k' : Disk} {h h' : Holder}
    {i : Nat} (hi : Nameless k i) (hlt : i < k.next) (e : ICase E ch d a log k h k' h') : Nameless k' i := by
  cases e with
  | skipped => exact hi
  | stays j l => intro p; rw [iWrite_node]; exact hi p
  | long => exact hi
  | refused path => exact (moves_rotate _ _ _ _ _).nameless hi
  | opens path s1 l _ _ _ _ _ _ h1 =>
    have hm := moves_rotate a d (limitOut d h.logs log.content.length) path k
    intro p
    rw [iWrite_node, h1]
    exact open_nameless (hm.nameless hi) (by rw [hm.next]; exact hlt) path p

theorem step_nameless {U : Nat → Seat} {e : DiskEv} {s s' : Desk} {i : Nat} (hi : Nameless s.disk i) (hlt : i < s.disk.next)
    (h : deskStep U e s = some s') : Nameless s'.disk i := by
  cases e with
  | log u a l => exact icase_nameless hi hlt (desk_log h).1
  | rename a b => obtain rfl := Option.some.inj h; exact (moves_rename _ _ _).nameless hi
  | remove p => obtain rfl := Option.some.inj h; exact (moves_unlink _ _).nameless hi
  | create p => obtain rfl := Option.some.inj h; exact open_nameless hi hlt p

theorem stubborn_close {d : Device} (hd : Stubborn d) (log : FileLog) (h : Holder) : iClose d log h = h := by
  obtain ⟨h1, h2, h3⟩ := hd
  unfold iClose
  rw [if_neg]
  intro e
  rcases Bool.or_eq_true_iff.mp e with e | e
  · have := limitOut_iff (s := seen h).mp e
    exact h1 ⟨this.1, this.2.1⟩
  · have := periodOut_iff (s := seen h).mp e
    rcases this with ⟨x, _⟩ | ⟨_, x, _⟩
    · exact x h2
    · exact x h3

theorem nowhere_run {U : Nat → Seat} {u i : Nat} (hd : Stubborn (U u).device) {s s' : Desk} {es : List DiskEv}
    {t : List (Nat × FileLog)} (h : DeskLogs U s es t s') (hk : SoundDisk s.disk) (hh : Held s)
    (hs : ∀ x ∈ allLogs es, x.1 = u → x.2.short = none) (hi : (s.holder u).handle = some i) (hn : Nameless s.disk i) :
    (s'.holder u).handle = some i ∧ Nameless s'.disk i ∧ t.filter (·.1 = u) = (allLogs es).filter (·.1 = u) ∧
    ∃ w : List Stamp, w.map (fun x => (x.user, x.text)) = texts t ∧ (∀ j, s'.disk.data j = s.disk.data j ++ intoNode j w) ∧
      ∀ x ∈ w, x.user = u → x.inode = i := by
  induction h with
  | nil s => exact ⟨hi, hn, rfl, [], rfl, fun i => by simp [intoNode], by simp⟩
  | @taken s s1 s2 v a l es t h1 hf _ ih =>
    obtain ⟨p1, p2, _, p4⟩ := log_step hk hh h1
    have hn1 := step_nameless hn (hh u i hi) h1
    obtain ⟨hcase, ho⟩ := desk_log h1
    have hi1 : (s1.holder u).handle = some i ∧ (v = u → ∀ j, s1.disk.data j = s.disk.data j ++ if j = i then block l else []) := by
      by_cases hvu : v = u
      · subst hvu
        have hcl := stubborn_close hd l (s.holder v)
        generalize s1.disk = k', s1.holder v = h' at hcase
        cases hcase with
        | skipped hx => rw [hi] at hx; cases hx
        | stays j l' hj _ _ =>
          rw [hi] at hj
          obtain rfl := Option.some.inj hj
          exact ⟨(iWrite_full (hs (v, l) List.mem_cons_self rfl) _ _).trans hi, fun _ j => iWrite_data _ _ _ _⟩
        | long path hx => rw [hcl, hi] at hx; cases hx
        | refused path hx => rw [hcl, hi] at hx; cases hx
        | opens path s1 l' hx => rw [hcl, hi] at hx; cases hx
      · exact ⟨by rw [ho u (fun x => hvu x.symm)]; exact hi, fun x => absurd x hvu⟩
    obtain ⟨q1, q2, q3, w, q4, q5, q6⟩ := ih p1 p2 (fun x hx => hs x (List.mem_cons_of_mem _ hx)) hi1.1 hn1
    have hd' : ∃ j, (v = u → j = i) ∧ ∀ x, s1.disk.data x = s.disk.data x ++ if x = j then block l else [] := by
      by_cases hvu : v = u
      · exact ⟨i, fun _ => rfl, hi1.2 hvu⟩
      · rcases p4 with ⟨_, j, _, hd, _⟩ | ⟨hx, _⟩
        · exact ⟨j, fun x => absurd x hvu, hd⟩
        · exact absurd hf hx
    obtain ⟨j, hj, hdj⟩ := hd'
    refine ⟨q1, q2, ?_, (block l).map (fun b => ⟨v, j, b⟩) ++ w, ?_, fun x => ?_, fun x hx hxu => ?_⟩
    · simp only [allLogs]
      by_cases hvu : v = u
      · rw [List.filter_cons_of_pos (by simpa using hvu), List.filter_cons_of_pos (by simpa using hvu), q3]
      · rw [List.filter_cons_of_neg (by simpa using hvu), List.filter_cons_of_neg (by simpa using hvu), q3]
    · simp only [List.map_append, List.map_map, q4, texts, List.flatMap_cons]
      rfl
    · rw [q5 x, hdj x, List.append_assoc]
      congr 1
      simp only [intoNode, List.filter_append, List.map_append]
      congr 1
      by_cases hx : x = j
      · subst hx
        rw [if_pos rfl, List.filter_eq_self.mpr (by simp), List.map_map]
        simp [Function.comp_def]
      · rw [if_neg hx, List.filter_eq_nil_iff.mpr]
        · rfl
        · intro y hy
          obtain ⟨b, _, rfl⟩ := List.mem_map.mp hy
          simpa using fun e => hx e.symm
    · rcases List.mem_append.mp hx with hx | hx
      · obtain ⟨b, _, rfl⟩ := List.mem_map.mp hx
        exact hj hxu
      · exact q6 x hx hxu
  | @dropped s s1 s2 v a l es t h1 hf _ ih =>
    obtain ⟨p1, p2, _, p4⟩ := log_step hk hh h1
    have hn1 := step_nameless hn (hh u i hi) h1
    obtain ⟨_, ho⟩ := desk_log h1
    have hvu : v ≠ u := by
      rintro rfl
      exact hf (Or.inl (stays_iff.mpr (by rw [stubborn_close hd, hi]; nofun)))
    have hi1 : (s1.holder u).handle = some i := by rw [ho u (fun x => hvu x.symm)]; exact hi
    obtain ⟨q1, q2, q3, w, q4, q5, q6⟩ := ih p1 p2 (fun x hx => hs x (List.mem_cons_of_mem _ hx)) hi1 hn1
    rcases p4 with ⟨hx, _⟩ | ⟨_, hd, _⟩
    · exact absurd hx hf
    · refine ⟨q1, q2, ?_, w, q4, fun j => by rw [q5 j, hd], q6⟩
      simp only [allLogs]
      rw [List.filter_cons_of_neg (by simpa using hvu), q3]
  | @other s s1 s2 e es t he h1 _ ih =>
    obtain ⟨p1, p2, p3, p4⟩ := other_step he hk h1
    have hn1 := step_nameless hn (hh u i hi) h1
    rw [all_other he] at hs ⊢
    obtain ⟨q1, q2, q3, w, q4, q5, q6⟩ := ih p1
      (fun v i hi => Nat.lt_of_lt_of_le (hh v i (by rw [← p3]; exact hi)) p2) hs (by rw [p3]; exact hi) hn1
    exact ⟨q1, q2, q3, w, q4, fun j => by rw [q5 j, p4], q6⟩

/-! ## Which names there are -/

theorem names_rollback {P : List Char → Prop} (a : DiskSays) {N : Int} (hc : ∀ (q : List Char) (d : Nat), P q → 1 ≤ d → (d : Int) ≤ N → P (nextPath q d))
    (p : List Char) (n : Nat) (hp : P p) (hn : 1 ≤ n) {k : Disk} (h : ∀ q, k.node q ≠ none → P q) :
    ∀ q, (iRollback a N p n k).node q ≠ none → P q := by
  induction hm : (N + 1 - n).toNat generalizing p n with
  | zero =>
    rw [iRollback]
    split
    · exact h
    · rw [if_pos (by omega)]
      split
      · intro q hq
        simp only [Disk.unlink] at hq
        split at hq
        · exact absurd rfl hq
        · exact h q hq
      · exact h
  | succ m ih =>
    rw [iRollback]
    split
    · exact h
    · split
      · split
        · intro q hq
          simp only [Disk.unlink] at hq
          split at hq
          · exact absurd rfl hq
          · exact h q hq
        · exact h
      · dsimp only
        have hnp := hc p n hp hn (by omega)
        have hi := ih (nextPath p n) (n + 1) hnp (by omega) (by omega)
        split
        · intro q hq
          unfold Disk.rename at hq
          split at hq
          · exact hi q hq
          · simp only at hq
            split at hq
            · exact absurd rfl hq
            · split at hq
              · rename_i e; rw [e]; exact hnp
              · exact hi q hq
        · exact hi

/-- The rotation of a device keeps the names in `P`. -/
def RotatesIn (P : List Char → Prop) (d : Device) : Prop :=
  ∀ (q : List Char) (n : Nat), P q → 1 ≤ n → (n : Int) ≤ toInt (if d.cfg.rollback > 0 then d.cfg.rollback else 1) → P (nextPath q n)

theorem names_log {P : List Char → Prop} {E : FileEnv} {ch : Int} {d : Device} {a : DiskSays} {log : FileLog} {k k' : Disk}
    {h h' : Holder} (hc : RotatesIn P d) (hP : ∀ p, fullPath E.proc (E.tm log.ts) E.fuel d ch = some p → P p)
    (hk : ∀ q, k.node q ≠ none → P q) (e : ICase E ch d a log k h k' h') : ∀ q, k'.node q ≠ none → P q := by
  have hr : ∀ lim path, P path → ∀ q, (iRotate a d lim path k).node q ≠ none → P q := by
    intro lim path hp
    unfold iRotate
    split
    · split
      · exact names_rollback a hc path 1 hp (Nat.le_refl _) hk
      · exact hk
    · exact hk
  cases e with
  | skipped => exact hk
  | stays i l => rw [iWrite_node]; exact hk
  | long => exact hk
  | refused path _ _ hp => exact hr _ path (hP path hp)
  | opens path s1 l _ _ hp _ _ _ h1 =>
    rw [iWrite_node, h1]
    intro q hq
    by_cases hx : q = path
    · rw [hx]; exact hP path hp
    · rw [open_other _ _ hx] at hq
      exact hr _ path (hP path hp) q hq

theorem names_run {U : Nat → Seat} {P : List Char → Prop} (es : List DiskEv)
    (hl : ∀ e ∈ es, ∃ u a l, e = .log u a l ∧ RotatesIn P (U u).device ∧ ∀ p,
      fullPath (U u).env.proc ((U u).env.tm l.ts) (U u).env.fuel (U u).device (U u).channel = some p → P p) :
    ∀ {s s' : Desk}, deskRun U es s = some s' → (∀ q, s.disk.node q ≠ none → P q) → ∀ q, s'.disk.node q ≠ none → P q := by
  induction es with
  | nil =>
    intro s s' h hk
    obtain rfl := Option.some.inj h
    exact hk
  | cons e es ih =>
    intro s s' h hk
    simp only [deskRun, Option.bind_eq_some_iff] at h
    obtain ⟨s1, h1, h⟩ := h
    obtain ⟨u, a, l, rfl, hw, hp⟩ := hl e List.mem_cons_self
    exact ih (fun e he => hl e (List.mem_cons_of_mem _ he)) h (names_log hw hp hk (desk_log h1).1)

/-! ## Defined -/

theorem iFileDevice_some {E : FileEnv} {ch : Int} {d : Device} {a : DiskSays} {log : FileLog} (s : Disk × Holder) (hv : Valid log)
    (hp : (fullPath E.proc (E.tm log.ts) E.fuel d ch).isSome = true) : ∃ s', iFileDevice E ch d a log s = some s' := by
  unfold iFileDevice
  split
  · exact ⟨_, rfl⟩
  · have ho : ∃ s1, iOpenFileDevice E ch d a log s = some s1 := by
      unfold iOpenFileDevice
      dsimp only
      split
      · exact ⟨_, rfl⟩
      · obtain ⟨p, hp⟩ := Option.isSome_iff_exists.mp hp
        rw [hp]
        simp only [Option.bind_eq_bind, Option.bind_some]
        split <;> exact ⟨_, rfl⟩
    obtain ⟨s1, ho⟩ := ho
    rw [ho]
    simp only [Option.bind_eq_bind, Option.bind_some]
    split
    · exact ⟨_, rfl⟩
    · rw [accountFile_eq hv]
      exact ⟨_, rfl⟩

theorem deskRun_some {U : Nat → Seat} (es : List DiskEv) (hv : ∀ x ∈ allLogs es, Valid x.2 ∧
    (fullPath (U x.1).env.proc ((U x.1).env.tm x.2.ts) (U x.1).env.fuel (U x.1).device (U x.1).channel).isSome = true) :
    ∀ s : Desk, ∃ s', deskRun U es s = some s' := by
  induction es with
  | nil => intro s; exact ⟨s, rfl⟩
  | cons e es ih =>
    intro s
    have h1 : ∃ s1, deskStep U e s = some s1 := by
      cases e with
      | log u a l =>
        obtain ⟨h1, h2⟩ := hv (u, l) List.mem_cons_self
        obtain ⟨r, hr⟩ := iFileDevice_some (a := a) (s.disk, s.holder u) h1 h2
        exact ⟨_, by simp only [deskStep, hr]; rfl⟩
      | rename a b => exact ⟨_, rfl⟩
      | remove p => exact ⟨_, rfl⟩
      | create p => exact ⟨_, rfl⟩
    obtain ⟨s1, h1⟩ := h1
    have hv' : ∀ x ∈ allLogs es, Valid x.2 ∧ (fullPath (U x.1).env.proc ((U x.1).env.tm x.2.ts) (U x.1).env.fuel
        (U x.1).device (U x.1).channel).isSome = true := by
      intro x hx
      apply hv
      cases e with
      | log u a l => exact List.mem_cons_of_mem _ hx
      | rename a b => exact hx
      | remove p => exact hx
      | create p => exact hx
    obtain ⟨s', h'⟩ := ih hv' s1
    exact ⟨s', by simp only [deskRun, h1, Option.bind_some]; exact h'⟩

end FNLog
