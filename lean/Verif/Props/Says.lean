import Verif.Lemmas.Base64
import Verif.Lemmas.SaysVal
import Verif.Lemmas.SaysOpen
import Verif.Props.RoundTrip
import Verif.Model.Cli
/-
C58: edited documents.
-/

namespace Pal
open Spec

/-! ### headers -/

theorem idx_iff {v x : Val} {i : Nat} : v.idx i = .ok x ↔ ∃ l, Items v l ∧ l[i]? = some x := by
  unfold Val.idx
  simp only [← seqItems_iff]
  cases v.seqItems with
  | error e => simp
  | ok l =>
    simp only [Except.ok.injEq]
    cases h : l[i]? <;> simp [h]

theorem version_says {v : Val} {x : Guid × BitVec 32} (h : SaysVersion v x) : customVersionEncode v = .ok (eVersion x) := by
  obtain ⟨a, b, t, h1, h2, h3⟩ := h
  unfold customVersionEncode
  rw [(idx_iff (i := 0)).2 ⟨_, h1, rfl⟩, (idx_iff (i := 1)).2 ⟨_, h1, rfl⟩]
  exact wcat2.2 ⟨_, _, wGuid_says h2, wI32_iff.2 ⟨_, h3, rfl⟩, rfl⟩

theorem version_plain {v : Val} {b : Bytes} (hp : PlainDoc v) (h : customVersionEncode v = .ok b) :
    ∃ x, SaysVersion v x ∧ b = eVersion x := by
  unfold customVersionEncode at h
  obtain ⟨c, d, h1, h2, rfl⟩ := wcat2.1 h
  cases h3 : v.idx 0 with
  | error e => rw [h3] at h1; cases h1
  | ok x =>
    cases h4 : v.idx 1 with
    | error e => rw [h4] at h2; cases h2
    | ok y =>
      rw [h3] at h1
      rw [h4] at h2
      obtain ⟨l, h5, h6⟩ := idx_iff.1 h3
      obtain ⟨l', h7, h8⟩ := idx_iff.1 h4
      rw [← seqItems_iff] at h5 h7
      rw [h5] at h7
      cases h7
      rw [seqItems_iff] at h5
      obtain ⟨n, h9, rfl⟩ := wI32_iff.1 h2
      match l, h6, h8 with
      | a :: b :: t, h6, h8 =>
        cases h6
        cases h8
        obtain ⟨g, h10, rfl⟩ := wGuid_plain (plain_items hp h5 x List.mem_cons_self) h1
        exact ⟨(g, n), ⟨x, y, t, h5, h10, h9⟩, rfl⟩
      | [a], h6, h8 => cases h8
      | [], h6, h8 => cases h8

theorem versions_plain : ∀ {l : List Val} {b : Bytes}, (∀ x ∈ l, PlainDoc x) → wItems customVersionEncode l = .ok b →
    ∃ xs, List.Forall₂ SaysVersion l xs ∧ b = xs.flatMap eVersion
  | [], b, _, h => by
    cases h
    exact ⟨[], .nil, rfl⟩
  | v :: l, b, hp, h => by
    unfold wItems at h
    rw [List.map_cons, wcat_iff] at h
    obtain ⟨c, d, h1, h2, rfl⟩ := h
    obtain ⟨xs, h3, rfl⟩ := versions_plain (fun x hx => hp x (List.mem_cons_of_mem _ hx)) h2
    obtain ⟨x, h4, rfl⟩ := version_plain (hp v List.mem_cons_self) h1
    exact ⟨x :: xs, .cons h4 h3, rfl⟩

theorem versions_says : ∀ {l : List Val} {xs : List (Guid × BitVec 32)}, List.Forall₂ SaysVersion l xs →
    wItems customVersionEncode l = .ok (xs.flatMap eVersion)
  | _, _, .nil => rfl
  | v :: l, x :: xs, .cons h1 h2 => by
    unfold wItems
    rw [List.map_cons, wcat_iff]
    exact ⟨_, _, version_says h1, versions_says h2, rfl⟩

theorem wTArray_iff {w : Val → Except Err Bytes} {v : Val} {b : Bytes} :
    wTArray w v = .ok b ↔ ∃ l c, Items v l ∧ l.length < 2 ^ 32 ∧ wItems w l = .ok c ∧ b = lit 4 l.length ++ c := by
  unfold wTArray
  simp only [← seqItems_iff]
  cases v.seqItems with
  | error e => simp
  | ok l =>
    simp only [wcat2, wU32_count]
    constructor
    · rintro ⟨c, d, ⟨h1, rfl⟩, h2, rfl⟩; exact ⟨l, d, rfl, h1, h2, rfl⟩
    · rintro ⟨_, c, h0, h1, h2, rfl⟩; cases h0; exact ⟨_, c, ⟨h1, rfl⟩, h2, rfl⟩

/-- What the fields of a loaded header say. -/
structure SaysHdr (h : Hdr) (magic ver fmt : BitVec 32) (x : Header) : Prop where
  magic : SaysI h.magic magic
  ver : SaysI h.saveGameVersion ver
  ue4 : SaysI h.ue4 x.ue4
  ue5 : SaysI h.ue5 x.ue5
  major : SaysU h.major x.major
  minor : SaysU h.minor x.minor
  patch : SaysU h.patch x.patch
  changelist : SaysU h.changelist x.changelist
  branch : h.branch = .str x.branch.val
  format : SaysI h.customFormat fmt
  versions : ∃ l, Items h.customVersions l ∧ List.Forall₂ SaysVersion l x.versions.val
  className : h.className = .str x.className.val

/-- What a loaded document says. -/
structure SaysFile (O : Val → Val → Prop) (g : Gvas) (magic ver fmt : BitVec 32) (f : File free) : Prop where
  header : SaysHdr g.header magic ver fmt f.header
  props : SaysPs O g.properties f.props
  trailer : g.trailer = f.trailer

/-- The fields of a header that hold texts or GUIDs are like those of a document. -/
structure PlainHdr (h : Hdr) : Prop where
  branch : PlainDoc h.branch
  versions : PlainDoc h.customVersions
  className : PlainDoc h.className

theorem hdr_says {h : Hdr} {magic ver fmt : BitVec 32} {x : Header} (hs : SaysHdr h magic ver fmt x) :
    h.write = .ok (x.encWith (e32 magic) ver fmt) := by
  obtain ⟨l, h1, h2⟩ := hs.versions
  have h3 : wTArray customVersionEncode h.customVersions = .ok (eList eVersion x.versions) :=
    wTArray_iff.2 ⟨l, _, h1, by rw [h2.length_eq]; exact x.versions.2, versions_says h2, by rw [h2.length_eq]; rfl⟩
  unfold Hdr.write
  rw [wI32_iff.2 ⟨_, hs.magic, rfl⟩, wI32_iff.2 ⟨_, hs.ver, rfl⟩, wI32_iff.2 ⟨_, hs.ue4, rfl⟩, wI32_iff.2 ⟨_, hs.ue5, rfl⟩,
    wU16_iff.2 ⟨_, hs.major, rfl⟩, wU16_iff.2 ⟨_, hs.minor, rfl⟩, wU16_iff.2 ⟨_, hs.patch, rfl⟩,
    wU32_iff.2 ⟨_, hs.changelist, rfl⟩, hs.branch, wFString_of, wI32_iff.2 ⟨_, hs.format, rfl⟩, h3, hs.className, wFString_of]
  simp only [wcat, Header.encWith, List.append_assoc, List.append_nil]

theorem hdr_plain {h : Hdr} {b : Bytes} (hp : PlainHdr h) (hw : h.write = .ok b) :
    ∃ magic ver fmt x, SaysHdr h magic ver fmt x ∧ b = x.encWith (e32 magic) ver fmt := by
  unfold Hdr.write at hw
  have hw0 := hw
  clear hw
  obtain ⟨c1, d1, a1, hw1, rfl⟩ := wcat_iff.1 hw0
  obtain ⟨c2, d2, a2, hw2, rfl⟩ := wcat_iff.1 hw1
  obtain ⟨c3, d3, a3, hw3, rfl⟩ := wcat_iff.1 hw2
  obtain ⟨c4, d4, a4, hw4, rfl⟩ := wcat_iff.1 hw3
  obtain ⟨c5, d5, a5, hw5, rfl⟩ := wcat_iff.1 hw4
  obtain ⟨c6, d6, a6, hw6, rfl⟩ := wcat_iff.1 hw5
  obtain ⟨c7, d7, a7, hw7, rfl⟩ := wcat_iff.1 hw6
  obtain ⟨c8, d8, a8, hw8, rfl⟩ := wcat_iff.1 hw7
  obtain ⟨c9, d9, a9, hw9, rfl⟩ := wcat_iff.1 hw8
  obtain ⟨c10, d10, a10, hw10, rfl⟩ := wcat_iff.1 hw9
  obtain ⟨c11, c12, a11, a12, rfl⟩ := wcat2.1 hw10
  obtain ⟨magic, b1, rfl⟩ := wI32_iff.1 a1
  obtain ⟨ver, b2, rfl⟩ := wI32_iff.1 a2
  obtain ⟨u4, b3, rfl⟩ := wI32_iff.1 a3
  obtain ⟨u5, b4, rfl⟩ := wI32_iff.1 a4
  obtain ⟨ma, b5, rfl⟩ := wU16_iff.1 a5
  obtain ⟨mi, b6, rfl⟩ := wU16_iff.1 a6
  obtain ⟨pa, b7, rfl⟩ := wU16_iff.1 a7
  obtain ⟨cl, b8, rfl⟩ := wU32_iff.1 a8
  obtain ⟨br, b9, rfl⟩ := wFString_plain hp.branch a9
  obtain ⟨fmt, b10, rfl⟩ := wI32_iff.1 a10
  obtain ⟨l, c, b11, b12, b13, rfl⟩ := wTArray_iff.1 a11
  obtain ⟨xs, b14, rfl⟩ := versions_plain (plain_items hp.versions b11) b13
  obtain ⟨cn, b15, rfl⟩ := wFString_plain hp.className a12
  have hl := b14.length_eq
  refine ⟨magic, ver, fmt, ⟨u4, u5, ma, mi, pa, cl, br, ⟨xs, by rw [← hl]; exact b12⟩, cn⟩,
    ⟨b1, b2, b3, b4, b5, b6, b7, b8, b9, b10, ⟨l, b11, b14⟩, b15⟩, ?_⟩
  simp only [Header.encWith, eList, hl, List.append_assoc]

/-! ### files -/

theorem file_plain {g g' : Gvas} {cfg : Cfg} {b : Bytes} (hh : PlainHdr g.header) (hp : PlainDoc g.properties)
    (h : g.write cfg = .ok (b, g')) :
    ∃ magic ver fmt f, SaysFile (Opens cfg) g magic ver fmt f ∧ b = f.encWith magic ver fmt := by
  obtain ⟨hb, pb, h1, h2, rfl, -⟩ := of_write h
  obtain ⟨magic, ver, fmt, x, h3, rfl⟩ := hdr_plain hh h1
  obtain ⟨ps, h4, rfl⟩ := fw_props _ (fun m _ => (opens_as cfg).fw m) _ _ hp ⟨_, h2⟩
  exact ⟨magic, ver, fmt, ⟨x, ps, g.trailer⟩, ⟨h3, h4, rfl⟩, rfl⟩

theorem file_says {g : Gvas} {magic ver fmt : BitVec 32} {f : File free} (cfg : Cfg) (h : SaysFile (Opens cfg) g magic ver fmt f) :
    ∃ g', g.write cfg = .ok (f.encWith magic ver fmt, g') := by
  rw [File.encWith, ← h.trailer]
  obtain ⟨k, hk⟩ := props_says (opens_as cfg) h.props
  exact write_of (hdr_says h.header) (wProps_rank (n := k) hk)

theorem hdrLoad_iff {d : Val} {h : Hdr} : Hdr.load d = .ok h ↔
    At d "magic" h.magic ∧ At d "save_game_version" h.saveGameVersion ∧ At d "package_file_version_ue4" h.ue4 ∧
    At d "package_file_version_ue5" h.ue5 ∧ At d "engine_version_major" h.major ∧ At d "engine_version_minor" h.minor ∧
    At d "engine_version_patch" h.patch ∧ At d "engine_version_changelist" h.changelist ∧
    At d "engine_version_branch" h.branch ∧ At d "custom_version_format" h.customFormat ∧
    At d "custom_versions" h.customVersions ∧ At d "save_game_class_name" h.className := by
  unfold At
  constructor
  · have key : ∀ {k : String} {α : Type} {f : Val → Except Err α} {y : α}, (d.get (P k) >>= f) = .ok y →
        ∃ x, d.get (P k) = .ok x ∧ f x = .ok y := by
      intro k α f y hy
      cases hg : d.get (P k) with
      | error e => rw [hg] at hy; cases hy
      | ok x => rw [hg] at hy; exact ⟨x, rfl, hy⟩
    intro hl
    unfold Hdr.load at hl
    obtain ⟨x1, a1, hl⟩ := key hl
    obtain ⟨x2, a2, hl⟩ := key hl
    obtain ⟨x3, a3, hl⟩ := key hl
    obtain ⟨x4, a4, hl⟩ := key hl
    obtain ⟨x5, a5, hl⟩ := key hl
    obtain ⟨x6, a6, hl⟩ := key hl
    obtain ⟨x7, a7, hl⟩ := key hl
    obtain ⟨x8, a8, hl⟩ := key hl
    obtain ⟨x9, a9, hl⟩ := key hl
    obtain ⟨x10, a10, hl⟩ := key hl
    obtain ⟨x11, a11, hl⟩ := key hl
    obtain ⟨x12, a12, hl⟩ := key hl
    cases hl
    exact ⟨a1, a2, a3, a4, a5, a6, a7, a8, a9, a10, a11, a12⟩
  · rintro ⟨a1, a2, a3, a4, a5, a6, a7, a8, a9, a10, a11, a12⟩
    unfold Hdr.load
    rw [a1, a2, a3, a4, a5, a6, a7, a8, a9, a10, a11, a12]
    rfl

theorem load_iff {d : Val} {g : Gvas} : Gvas.load d = .ok g ↔
    Entry d "header" (Hdr.load · = .ok g.header) ∧ At d "properties" g.properties ∧
      Entry d "trailer" (b64Decode · = .ok g.trailer) := by
  constructor
  · intro h
    unfold Entry At Gvas.load at *
    cases h1 : d.get (P "header") with
    | error e => rw [h1] at h; cases h
    | ok hd =>
      rw [h1] at h
      cases h2 : Hdr.load hd with
      | error e => simp only [bind, Except.bind, h2] at h; cases h
      | ok x =>
        cases h3 : d.get (P "properties") with
        | error e => simp only [bind, Except.bind, h2, h3] at h; cases h
        | ok p =>
          cases h4 : d.get (P "trailer") with
          | error e => simp only [bind, Except.bind, h2, h3, h4] at h; cases h
          | ok t =>
            cases h5 : b64Decode t with
            | error e => simp only [bind, Except.bind, h2, h3, h4, h5] at h; cases h
            | ok t' =>
              simp only [bind, Except.bind, h2, h3, h4, h5, pure, Except.pure] at h
              cases h
              exact ⟨⟨hd, rfl, h2⟩, rfl, t, rfl, h5⟩
  · rintro ⟨⟨hd, h1, h2⟩, h3, t, h4, h5⟩
    unfold At at *
    unfold Gvas.load
    simp only [bind, Except.bind, h1, h2, h3, h4, h5, pure, Except.pure]

theorem hdrLoad_plain {d : Val} {h : Hdr} (hp : PlainDoc d) (hl : Hdr.load d = .ok h) : PlainHdr h := by
  obtain ⟨-, -, -, -, -, -, -, -, a9, -, a11, a12⟩ := hdrLoad_iff.1 hl
  exact ⟨plain_at hp a9, plain_at hp a11, plain_at hp a12⟩

theorem doc_header {d : Val} {magic ver fmt : BitVec 32} {x : Header} :
    SaysHeader d magic ver fmt x ↔ ∃ h, Hdr.load d = .ok h ∧ SaysHdr h magic ver fmt x := by
  constructor
  · rintro ⟨⟨y1, a1, b1⟩, ⟨y2, a2, b2⟩, ⟨y3, a3, b3⟩, ⟨y4, a4, b4⟩, ⟨y5, a5, b5⟩, ⟨y6, a6, b6⟩, ⟨y7, a7, b7⟩, ⟨y8, a8, b8⟩,
      a9, ⟨y10, a10, b10⟩, ⟨y11, a11, b11⟩, a12⟩
    exact ⟨⟨y1, y2, y3, y4, y5, y6, y7, y8, _, y10, y11, _⟩,
      hdrLoad_iff.2 ⟨a1, a2, a3, a4, a5, a6, a7, a8, a9, a10, a11, a12⟩, ⟨b1, b2, b3, b4, b5, b6, b7, b8, rfl, b10, b11, rfl⟩⟩
  · rintro ⟨h, hl, ⟨b1, b2, b3, b4, b5, b6, b7, b8, b9, b10, b11, b12⟩⟩
    obtain ⟨a1, a2, a3, a4, a5, a6, a7, a8, a9, a10, a11, a12⟩ := hdrLoad_iff.1 hl
    exact ⟨⟨_, a1, b1⟩, ⟨_, a2, b2⟩, ⟨_, a3, b3⟩, ⟨_, a4, b4⟩, ⟨_, a5, b5⟩, ⟨_, a6, b6⟩, ⟨_, a7, b7⟩, ⟨_, a8, b8⟩, b9 ▸ a9,
      ⟨_, a10, b10⟩, ⟨_, a11, b11⟩, b12 ▸ a12⟩

theorem doc_iff {O : Val → Val → Prop} {d : Val} {magic ver fmt : BitVec 32} {f : File free} :
    SaysDoc O d magic ver fmt f ↔ ∃ g, Gvas.load d = .ok g ∧ SaysFile O g magic ver fmt f := by
  constructor
  · rintro ⟨⟨hd, h1, h2⟩, ⟨p, h3, h4⟩, ⟨t, h5, h6⟩⟩
    obtain ⟨h, h7, h8⟩ := doc_header.1 h2
    exact ⟨⟨h, p, f.trailer⟩, load_iff.2 ⟨⟨hd, h1, h7⟩, h3, t, h5, B64.says_iff.2 h6⟩, ⟨h8, h4, rfl⟩⟩
  · rintro ⟨g, hl, ⟨b1, b2, b3⟩⟩
    obtain ⟨⟨hd, h1, h2⟩, h3, t, h4, h5⟩ := load_iff.1 hl
    exact ⟨⟨hd, h1, doc_header.2 ⟨_, h2, b1⟩⟩, ⟨_, h3, b2⟩, ⟨t, h4, B64.says_iff.1 (b3 ▸ h5)⟩⟩

/-! ### the theorems -/

/-- C58: whatever document the tool writes, the file holds exactly what the document says, its custom properties
opened as `cfg` says. -/
theorem C58_written (d : Val) (hd : PlainDoc d) (cfg : Cfg) (g g' : Gvas) (hl : Gvas.load d = .ok g) (b : Bytes)
    (h : g.write cfg = .ok (b, g')) : ∃ magic ver fmt f, SaysDoc (Opens cfg) d magic ver fmt f ∧ b = f.encWith magic ver fmt := by
  obtain ⟨⟨x, h1, h2⟩, h3, -⟩ := load_iff.1 hl
  obtain ⟨magic, ver, fmt, f, h4, h5⟩ := file_plain (hdrLoad_plain (plain_at hd h1) h2) (plain_at hd h3) h
  exact ⟨magic, ver, fmt, f, doc_iff.2 ⟨g, hl, h4⟩, h5⟩

/-- C58: every document that says a file is written to that file. -/
theorem C58_writable (d : Val) (cfg : Cfg) (magic ver fmt : BitVec 32) (f : File free)
    (hd : SaysDoc (Opens cfg) d magic ver fmt f) :
    ∃ g g', Gvas.load d = .ok g ∧ g.write cfg = .ok (f.encWith magic ver fmt, g') := by
  obtain ⟨g, h1, h2⟩ := doc_iff.1 hd
  obtain ⟨g', h3⟩ := file_says cfg h2
  exact ⟨g, g', h1, h3⟩

/-- C58: a document says at most one file. -/
theorem C58_unambiguous (d : Val) (cfg : Cfg) (magic ver fmt magic' ver' fmt' : BitVec 32) (f f' : File free)
    (h : SaysDoc (Opens cfg) d magic ver fmt f) (h' : SaysDoc (Opens cfg) d magic' ver' fmt' f') :
    f.encWith magic ver fmt = f'.encWith magic' ver' fmt' := by
  obtain ⟨g, g1, h1, h2⟩ := C58_writable d cfg magic ver fmt f h
  obtain ⟨g', g2, h3, h4⟩ := C58_writable d cfg magic' ver' fmt' f' h'
  rw [h1] at h3
  cases h3
  rw [h2] at h4
  exact (Prod.mk.inj (Except.ok.inj h4)).1

/-- C58: reading a file gives a document that says this file. -/
theorem C58_shown (f : File free) (cfg : Cfg) (hn : cfg.allowNan = true) (hc : ∀ p, cfg.custom p = none) (hw : f.Wf cfg) :
    ∃ g, gvasRead cfg f.enc = .ok g ∧ ∀ B, SaysDoc (Opens B) g.dump 1396790855 3 3 f := by
  refine ⟨_, file_read hn (fun h => by cases h) f hw, fun B => doc_iff.2 ⟨_, C27_dump_load _, ?_, ?_, rfl⟩⟩
  · have hv : ∀ l : List (Guid × BitVec 32),
        List.Forall₂ SaysVersion (l.map fun v => Val.tuple [vGuid v.1, vI v.2]) l := by
      intro l
      induction l with
      | nil => exact .nil
      | cons v t ih => exact .cons ⟨_, _, [], .tuple _, .uuid _, .int _⟩ ih
    exact ⟨.int _, .int _, .int _, .int _, .int _, .int _, .int _, .int _, rfl, .int _, ⟨_, .list _, hv _⟩, rfl⟩
  · obtain ⟨h1, h2⟩ := hw
    simp only [SVal.Wf] at h1
    exact .dict (says_props hc f.props [] h1.2 h2)

/-- C58: a document that says a save file, edited or not, survives being written and read: the document that
comes back says the same file. -/
theorem C58_read_back (d : Val) (f : File free) (B : Cfg) (hd : SaysDoc (Opens B) d 1396790855 3 3 f) (cfg : Cfg)
    (hn : cfg.allowNan = true) (hc : ∀ p, cfg.custom p = none) (hw : f.Wf cfg) :
    ∃ g b g' r, Gvas.load d = .ok g ∧ g.write B = .ok (b, g') ∧ gvasRead cfg b = .ok r ∧
      ∀ B', SaysDoc (Opens B') r.dump 1396790855 3 3 f := by
  obtain ⟨g, g', h1, h2⟩ := C58_writable d B _ _ _ f hd
  obtain ⟨r, h3, h4⟩ := C58_shown f cfg hn hc hw
  refine ⟨g, _, g', r, h1, h2, ?_, h4⟩
  rw [← h3, File.encWith, File.enc, ← magic_eq]
  rfl

/-! ### cases -/

/-- A document with a bool for a number, numbers for floats, a GUID as text, a missing "id", text for a truth value. -/
def editedDoc : Val := dct [
  ("header", dct [("magic", .int 1396790855), ("save_game_version", .int 3), ("package_file_version_ue4", .bool true),
    ("package_file_version_ue5", .int (-5)), ("engine_version_major", .int 5), ("engine_version_minor", .int 1),
    ("engine_version_patch", .bool false), ("engine_version_changelist", .int 0), ("engine_version_branch", .str (P "b")),
    ("custom_version_format", .int 3),
    ("custom_versions", .list [.list [.str (P "01020304-0506-0708-090a-0b0c0d0e0f10"), .int 7]]),
    ("save_game_class_name", .str (P "/Script/Pal"))]),
  ("properties", dct [
    ("A", dct [("type", .str (P "IntProperty")), ("value", .bool true)]),
    ("B", dct [("value", .int 3), ("id", .none), ("type", .str (P "FloatProperty")), ("note", .str (P "x"))]),
    ("C", dct [("type", .str (P "StructProperty")), ("struct_type", .str (P "Guid")),
      ("struct_id", .str (P "{01020304-05060708-090A0B0C-0D0E0F10}")), ("id", .none),
      ("value", .uuid (List.replicate 16 7))]),
    ("D", dct [("type", .str (P "BoolProperty")), ("id", .none), ("value", .str (P "no"))]),
    ("E", dct [("type", .str (P "ArrayProperty")), ("array_type", .str (P "NameProperty")), ("id", .none),
      ("value", dct [("values", .str (P "xyz"))])])]),
  ("trailer", .str (P "AAAAAA=="))]

/-- The bytes of a document, if it is written. -/
def docBytes (cfg : Cfg) (d : Val) : Option Bytes :=
  match Gvas.load d with
  | .ok g => match g.write cfg with
    | .ok (b, _) => some b
    | .error _ => none
  | .error _ => none
/-- Whether a file is read. -/
def readable (cfg : Cfg) (b : Bytes) : Bool :=
  match gvasRead cfg b with
  | .ok _ => true
  | .error _ => false

def plainCfg : Cfg := ⟨fun _ => none, fun _ => none, true⟩

theorem editedDoc_plain : PlainDoc editedDoc := by
  simp only [editedDoc, dct_eq, vDict, PlainDoc, PlainDocL, PlainDocD, List.map, Val.str.injEq, forall_eq', reduceCtorEq,
    false_implies, implies_true, and_true, true_and]
  repeat' with_reducible apply And.intro
  all_goals decide +kernel

example := C58_written editedDoc editedDoc_plain
/-- It is written, and the file is read. -/
example : ∃ g b g', Gvas.load editedDoc = .ok g ∧ g.write plainCfg = .ok (b, g') ∧ readable plainCfg b = true := by
  have h : ((docBytes plainCfg editedDoc).map (readable plainCfg)) = some true := by decide +kernel
  unfold docBytes at h
  split at h
  · rename_i g hg
    split at h
    · rename_i b g' hb
      exact ⟨g, b, g', hg, hb, by simpa using h⟩
    · cases h
  · cases h

/-- A document with decoded raw data: an item container and an empty character slot. -/
def editedRaw : Val := dct [
  ("header", dct [("magic", .int 1396790855), ("save_game_version", .int 3), ("package_file_version_ue4", .int 522),
    ("package_file_version_ue5", .int 1008), ("engine_version_major", .int 5), ("engine_version_minor", .int 1),
    ("engine_version_patch", .int 1), ("engine_version_changelist", .int 0), ("engine_version_branch", .str (P "b")),
    ("custom_version_format", .int 3), ("custom_versions", .list []), ("save_game_class_name", .str (P "/Script/Pal"))]),
  ("properties", dct [
    ("A", dct [("type", .str (P "ArrayProperty")), ("array_type", .str (P "ByteProperty")),
      ("custom_type", .str (P ".worldSaveData.ItemContainerSaveData.Value.RawData")),
      ("value", dct [("permission", dct [("type_a", .list [.bool true, .int 255]), ("type_b", .list []),
        ("item_static_ids", .list [.str (P "Wood")])])])]),
    ("B", dct [("type", .str (P "ArrayProperty")), ("array_type", .str (P "ByteProperty")), ("id", .none),
      ("custom_type", .str (P ".worldSaveData.CharacterContainerSaveData.Value.Slots.Slots.RawData")), ("value", .none)])]),
  ("trailer", .str (P "AAAAAA=="))]

theorem editedRaw_plain : PlainDoc editedRaw := by
  simp only [editedRaw, dct_eq, vDict, PlainDoc, PlainDocL, PlainDocD, List.map, Val.str.injEq, forall_eq', reduceCtorEq,
    false_implies, implies_true, and_true, true_and]
  repeat' with_reducible apply And.intro
  all_goals decide +kernel

/-- It is written with the tool's custom properties, so it says a file. -/
example : ∃ magic ver fmt f, SaysDoc (Opens palAll) editedRaw magic ver fmt f := by
  have h : (docBytes palAll editedRaw).isSome = true := by decide +kernel
  unfold docBytes at h
  split at h
  · rename_i g hg
    split at h
    · rename_i b g' hb
      obtain ⟨magic, ver, fmt, f, hs, -⟩ := C58_written editedRaw editedRaw_plain palAll g g' hg b hb
      exact ⟨magic, ver, fmt, f, hs⟩
    · cases h
  · cases h

/-- A document with arrays that the tool writes, but does not read. -/
def arraysDoc : Val := dct [
  ("header", (hdrOf sampleHeader).dump),
  ("properties", dct [("A", dct [("type", .str (P "ArrayProperty")), ("array_type", .str (P "IntProperty")), ("id", .none),
      ("value", dct [("values", .list [.int 1, .bool true])])]),
    ("B", dct [("type", .str (P "ArrayProperty")), ("array_type", .str (P "Whatever")),
      ("value", dct [("values", .str [])])])]),
  ("trailer", .str (P "AAAAAA=="))]

theorem arraysDoc_plain : PlainDoc arraysDoc := by
  simp only [arraysDoc, hdrOf, sampleHeader, Hdr.dump, dct_eq, vDict, vI, vU, vStr, vList, vGuid, PlainDoc, PlainDocL, PlainDocD, List.map, and_true, true_and]
  repeat' with_reducible apply And.intro
  all_goals decide +kernel

/-- Not every file that is written is fit to be read: an array of ints says a file, but the file cannot be read. -/
theorem C58_unreadable_array : ∃ d magic ver fmt f e, SaysDoc (Opens plainCfg) d magic ver fmt f ∧
    gvasRead plainCfg (f.encWith magic ver fmt) = .error e := by
  have h : ((docBytes plainCfg arraysDoc).map (readable plainCfg)) = some false := by decide +kernel
  unfold docBytes at h
  split at h
  · rename_i g hg
    split at h
    · rename_i b g' hb
      rw [Option.map_some, Option.some.injEq] at h
      unfold readable at h
      split at h
      · cases h
      · rename_i e he
        obtain ⟨magic, ver, fmt, f, hs, rfl⟩ := C58_written arraysDoc arraysDoc_plain plainCfg g g' hg b hb
        exact ⟨arraysDoc, magic, ver, fmt, f, e, hs, he⟩
    · cases h
  · cases h

end Pal
