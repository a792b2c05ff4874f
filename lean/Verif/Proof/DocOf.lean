import Verif.Proof.Document

/-! # Every configuration within the documented ranges can be written down -/

namespace FNLog
open Spec

theorem networkPort_invol {p : Nat} (h : p < 65536) : networkPort (networkPort p) = p := by
  unfold networkPort; omega

theorem fin7 {p : Int} (h : 0 ≤ p ∧ p ≤ 6) : ((Fin.ofNat 7 p.toNat).val : Int) = p := by
  rw [show (Fin.ofNat 7 p.toNat).val = p.toNat % 7 from rfl]
  omega

theorem flag_one {n : Int} (h : n = 0 ∨ n = 1) : flag (decide (n = 1)) = n := by
  rcases h with rfl | rfl <;> rfl

theorem flag_able {n : Int} (h : n = 0 ∨ n = 1) : flag (!decide (n = 0)) = n := by
  rcases h with rfl | rfl <;> rfl

theorem quad_split {ip : Int} (h0 : 0 ≤ ip) (h : ip < 2 ^ 32) :
    ((networkQuad (ip.toNat % 256) (ip.toNat / 256 % 256) (ip.toNat / 65536 % 256) (ip.toNat / 16777216 % 256) : Nat) : Int)
      = ip := by
  unfold networkQuad; omega

/-- The settings of `devDoc` that are always there. -/
def devBase (d : Device) : Device := { d with outType := .null, path := [], file := [], cfg.udpIp := 0, cfg.udpPort := 0 }

theorem devBase_udp {d : Device} {a b : Int} (ha : a = d.cfg.udpIp) (hb : b = d.cfg.udpPort) :
    { devBase d with outType := d.outType, path := d.path, file := d.file,
                     cfg := { (devBase d).cfg with udpIp := a, udpPort := b } } = d := by
  subst ha hb; rfl

theorem devOk_append {a b : List DevSetting} {d : Device} (ha : DevOk a d)
    (hb : DevOk b (a.foldl (fun d s => s.apply d) d)) : DevOk (a ++ b) d := by
  induction a generalizing d with
  | nil => exact hb
  | cons s a ih => exact ⟨ha.1, ih ha.2 hb⟩

theorem devDoc_ok {i : Nat} {d : Device} (h : DevExpressible i d) :
    DevOk (devDoc d) { id := i } ∧ devMeaning i (devDoc d) = d := by
  obtain ⟨base, hbase⟩ : ∃ base, base = ([.disable (d.cfg.able = 0), .inType d.inType,
    .filter (.priority (Fin.ofNat 7 d.cfg.priority.toNat)),
    .filter (.category d.cfg.category), .filter (.categoryExtend d.cfg.categoryExtend),
    .filter (.categoryWmask d.cfg.categoryMask), .filter (.identify d.cfg.identify),
    .filter (.identifyExtend d.cfg.identifyExtend), .filter (.identifyWmask d.cfg.identifyMask),
    .limitSize (d.cfg.limitSize / 1000000), .rollback d.cfg.rollback, .rolldaily (d.cfg.rolldaily = 1),
    .rollhourly (d.cfg.rollhourly = 1), .stuffUp (d.cfg.stuffUp = 1)] : List DevSetting) := ⟨_, rfl⟩
  have hlim : d.cfg.limitSize / 1000000 * 1000000 = d.cfg.limitSize := by have := h.limitSize.2; omega
  have h1 : base.foldl (fun d s => s.apply d) ({ id := i } : Device) = devBase d := by
    rw [hbase]
    simp only [List.foldl_cons, List.foldl_nil, DevSetting.apply, FilterSetting.applyDev, fin7 h.priority, flag_one h.rolldaily,
      flag_one h.rollhourly, flag_one h.stuffUp, flag_able h.able, hlim, devBase, h.id]
  have o1 : DevOk base { id := i } := by
    rw [hbase]
    refine ⟨trivial, trivial, trivial, h.category, h.categoryExtend, h.categoryMask, h.identify, h.identifyExtend,
      h.identifyMask, ?_, h.rollback, trivial, trivial, trivial, trivial⟩
    show LL (d.cfg.limitSize / 1000000 * 1000000)
    rw [hlim]; exact h.limitSize.1
  have h2 : (if d.outType = .null then [] else [DevSetting.outType d.outType]).foldl (fun d s => s.apply d) (devBase d) =
      { devBase d with outType := d.outType } := by
    by_cases e : d.outType = .null
    · rw [if_pos e, e]; rfl
    · rw [if_neg e]; rfl
  have o2 : DevOk (if d.outType = .null then [] else [DevSetting.outType d.outType]) (devBase d) := by
    by_cases e : d.outType = .null
    · rw [if_pos e]; trivial
    · rw [if_neg e]; exact ⟨e, trivial⟩
  have h3 : (if d.path = [] then [] else [DevSetting.path d.path]).foldl (fun d s => s.apply d)
      { devBase d with outType := d.outType } = { devBase d with outType := d.outType, path := d.path } := by
    by_cases e : d.path = []
    · rw [if_pos e, e]; rfl
    · rw [if_neg e]; rfl
  have o3 : DevOk (if d.path = [] then [] else [DevSetting.path d.path]) { devBase d with outType := d.outType } := by
    by_cases e : d.path = []
    · rw [if_pos e]; trivial
    · rw [if_neg e]
      exact ⟨⟨h.path.1, List.length_pos_iff.mpr e, h.path.2⟩, trivial⟩
  have h4 : (if d.file = [] then [] else [DevSetting.file d.file]).foldl (fun d s => s.apply d)
      { devBase d with outType := d.outType, path := d.path } =
        { devBase d with outType := d.outType, path := d.path, file := d.file } := by
    by_cases e : d.file = []
    · rw [if_pos e, e]; rfl
    · rw [if_neg e]; rfl
  have o4 : DevOk (if d.file = [] then [] else [DevSetting.file d.file])
      { devBase d with outType := d.outType, path := d.path } := by
    by_cases e : d.file = []
    · rw [if_pos e]; trivial
    · rw [if_neg e]
      exact ⟨⟨h.file.1, List.length_pos_iff.mpr e, h.file.2⟩, trivial⟩
  obtain ⟨u, hu⟩ : ∃ u, u = (if d.cfg.udpPort = 0 then [] else
    [DevSetting.udpAddr (d.cfg.udpIp.toNat % 256) (d.cfg.udpIp.toNat / 256 % 256) (d.cfg.udpIp.toNat / 65536 % 256)
      (d.cfg.udpIp.toNat / 16777216 % 256) (networkPort d.cfg.udpPort.toNat)]) := ⟨_, rfl⟩
  have h5 : u.foldl (fun d s => s.apply d) { devBase d with outType := d.outType, path := d.path, file := d.file } = d ∧
      DevOk u { devBase d with outType := d.outType, path := d.path, file := d.file } := by
    rw [hu]
    rcases h.udp with ⟨e1, e2⟩ | ⟨e1, e2, e3, e4, e5⟩
    · rw [if_pos e2]
      refine ⟨?_, trivial⟩
      exact devBase_udp e1.symm e2.symm
    · have hp : networkPort d.cfg.udpPort.toNat < 65536 ∧ 0 < networkPort d.cfg.udpPort.toNat := by
        unfold networkPort; omega
      rw [if_neg (by omega)]
      refine ⟨?_, ⟨by omega, by omega, by omega, by omega, hp.2, hp.1, ?_⟩, trivial⟩
      · exact devBase_udp (quad_split e1 e2) (by
          rw [networkPort_invol (p := d.cfg.udpPort.toNat) (by omega)]; omega)
      · intro ha hi
        have ha' : d.cfg.able ≠ 0 := ha
        have := e5 (h.able.resolve_left ha') hi
        omega
  have hdoc : devDoc d = base ++ (if d.outType = .null then [] else [.outType d.outType]) ++
      (if d.path = [] then [] else [.path d.path]) ++ (if d.file = [] then [] else [.file d.file]) ++ u := by
    rw [hbase, hu]; rfl
  rw [hdoc]
  constructor
  · refine devOk_append (devOk_append (devOk_append (devOk_append o1 ?_) ?_) ?_) ?_
    · rw [h1]; exact o2
    · rw [List.foldl_append, h1, h2]; exact o3
    · rw [List.foldl_append, List.foldl_append, h1, h2, h3]; exact o4
    · rw [List.foldl_append, List.foldl_append, List.foldl_append, h1, h2, h3, h4]; exact h5.2
  · unfold devMeaning
    rw [List.foldl_append, List.foldl_append, List.foldl_append, List.foldl_append, h1, h2, h3, h4]
    exact h5.1

theorem chanOk_append {a b : List ChanLine} {c : Channel} (ha : ChanOk a c)
    (hb : ChanOk b (a.foldl (fun c s => s.apply c) c)) : ChanOk (a ++ b) c := by
  induction a generalizing c with
  | nil => exact hb
  | cons s a ih => exact ⟨ha.1, ih ha.2 hb⟩

theorem devices_doc : ∀ (ds : List Device) (c : Channel), c.devices.length + ds.length ≤ 20 →
    (∀ j d, ds[j]? = some d → DevExpressible (c.devices.length + j) d) →
    ChanOk (ds.map fun d => .device (devDoc d)) c ∧
    (ds.map fun d => ChanLine.device (devDoc d)).foldl (fun c s => s.apply c) c =
      { c with devices := c.devices ++ ds,
               virtualDeviceId := ((ds.filter (·.outType = .virtual)).map (·.id)).getLastD c.virtualDeviceId } := by
  intro ds
  induction ds with
  | nil => intro c _ _; exact ⟨trivial, by simp⟩
  | cons d ds ih =>
    intro c hn h
    simp only [List.length_cons] at hn
    have hd := devDoc_ok (h 0 d rfl)
    rw [Nat.add_zero] at hd
    have happ : ChanLine.apply (.device (devDoc d)) c =
        { c with devices := c.devices ++ [d], virtualDeviceId := if d.outType = .virtual then d.id else c.virtualDeviceId } := by
      simp only [ChanLine.apply, hd.2]
    have hlen : (ChanLine.apply (.device (devDoc d)) c).devices.length = c.devices.length + 1 := by simp [ChanLine.apply]
    obtain ⟨i1, i2⟩ := ih (ChanLine.apply (.device (devDoc d)) c) (by rw [hlen]; omega) (fun j e he => by
      rw [hlen]
      have := h (j + 1) e he
      rwa [show c.devices.length + (j + 1) = c.devices.length + 1 + j by omega] at this)
    refine ⟨⟨⟨by omega, hd.1⟩, i1⟩, ?_⟩
    rw [List.map_cons, List.foldl_cons, i2, happ]
    simp only [List.append_assoc, List.singleton_append]
    congr 1
    by_cases e : d.outType = .virtual
    · rw [List.filter_cons_of_pos (by simpa using e), if_pos e, List.map_cons, List.getLastD_cons]
    · rw [List.filter_cons_of_neg (by simpa using e), if_neg e]

theorem chanDoc_ok {i : Nat} {c : Channel} (h : ChanExpressible i c) :
    ChanOk (chanDoc c) { id := i } ∧ chanMeaning i (chanDoc c) = c := by
  obtain ⟨base, hbase⟩ : ∃ base, base = ([.set (.sync c.type), .set (.filter (.priority (Fin.ofNat 7 c.cfg.priority.toNat))),
    .set (.filter (.category c.cfg.category)), .set (.filter (.categoryExtend c.cfg.categoryExtend)),
    .set (.filter (.categoryWmask c.cfg.categoryMask)), .set (.filter (.identify c.cfg.identify)),
    .set (.filter (.identifyExtend c.cfg.identifyExtend)), .set (.filter (.identifyWmask c.cfg.identifyMask))] : List ChanLine) :=
    ⟨_, rfl⟩
  have h1 : base.foldl (fun c s => s.apply c) ({ id := i } : Channel) = { c with devices := [], virtualDeviceId := 0 } := by
    rw [hbase]
    simp only [List.foldl_cons, List.foldl_nil, ChanLine.apply, ChanSetting.apply, FilterSetting.applyChan, fin7 h.priority, h.id,
      h.state]
  have o1 : ChanOk base { id := i } := by
    rw [hbase]
    exact ⟨trivial, trivial, h.category, h.categoryExtend, h.categoryMask, h.identify, h.identifyExtend, h.identifyMask, trivial⟩
  have hd := devices_doc c.devices { c with devices := [], virtualDeviceId := 0 } (by simpa using h.count)
    (fun j d e => by simpa using h.devices j d e)
  have hdoc : chanDoc c = base ++ c.devices.map fun d => .device (devDoc d) := by rw [hbase]; rfl
  rw [hdoc]
  refine ⟨chanOk_append o1 (by rw [h1]; exact hd.1), ?_⟩
  unfold chanMeaning
  rw [List.foldl_append, h1, hd.2]
  simp only [List.nil_append, ← h.virtual]

theorem channels_doc : ∀ (cs : List Channel) (g : Config), g.channels ++ cs ≠ [] → g.channels.length + cs.length ≤ 2 →
    (∀ j c, cs[j]? = some c → ChanExpressible (g.channels.length + j) c) →
    DocOk (cs.map fun c => .channel (chanDoc c)) g ∧
    (cs.map fun c => TopLine.channel (chanDoc c)).foldl (fun g t => t.apply g) g = { g with channels := g.channels ++ cs } := by
  intro cs
  induction cs with
  | nil => intro g h _ _; exact ⟨by rw [List.append_nil] at h; exact h, by simp⟩
  | cons c cs ih =>
    intro g h0 hn h
    simp only [List.length_cons] at hn
    have hd := chanDoc_ok (h 0 c rfl)
    rw [Nat.add_zero] at hd
    have happ : TopLine.apply (.channel (chanDoc c)) g = { g with channels := g.channels ++ [c] } := by
      simp only [TopLine.apply, hd.2]
    have hlen : (TopLine.apply (.channel (chanDoc c)) g).channels.length = g.channels.length + 1 := by simp [TopLine.apply]
    obtain ⟨i1, i2⟩ := ih (TopLine.apply (.channel (chanDoc c)) g) (by rw [happ]; simp) (by rw [hlen]; omega) (fun j e he => by
      rw [hlen]
      have := h (j + 1) e he
      rwa [show g.channels.length + (j + 1) = g.channels.length + 1 + j by omega] at this)
    refine ⟨⟨⟨by omega, hd.1⟩, i1⟩, ?_⟩
    rw [List.map_cons, List.foldl_cons, i2, happ]
    simp

theorem configDoc_ok {g : Config} (h : Expressible g) (garbage : Int) :
    DocOk (configDoc g) { shmKey := garbage } ∧
    (configDoc g).foldl (fun g t => t.apply g) { shmKey := garbage } = g := by
  have hc := channels_doc g.channels { g with channels := [] } (by
    intro e
    have := h.count.1
    rw [List.nil_append] at e
    rw [e] at this; simp at this) (by simpa using h.count.2) (fun j c e => by simpa using h.channels j c e)
  refine ⟨⟨trivial, h.name, h.desc, h.shmKey, hc.1⟩, ?_⟩
  unfold configDoc
  rw [List.foldl_append]
  exact hc.2

end FNLog
