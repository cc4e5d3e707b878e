import Verif.Driver.Props18
/-! C103: ReadBlocks is called within the object. -/
namespace Disko.Driver
open Disko Spec BlockCache

variable {σ H α : Type}

namespace Spec

/-- The object's blocks lie below 2^64 bytes (with room for 8 more). -/
def Addressable (st : FileStat) : Prop :=
  st.numBlocks = 0 ∨ (0 < st.blockSize ∧ 0 ≤ st.numBlocks ∧ (st.numBlocks + 8) * st.blockSize < 2 ^ 64)

/-- What api.go:231-239 guarantees of ReadBlocks: the buffer is a whole number, not zero, of blocks, and all of them are blocks of the object. -/
def Within (st : FileStat) (index bufferLength : Nat) : Prop :=
  ∃ k : Nat, 0 < k ∧ (bufferLength : Int) = k * st.blockSize ∧ ((index + k : Nat) : Int) ≤ st.numBlocks

/-- Every ReadBlocks call is within the object as Stat describes it at that moment (unless it is too large to be addressed). -/
def ReadsWithin (impl : Impl σ H) (s : σ) (c : Call H) : Prop := ∀ h i n, c = .readBlocks h i n → Addressable (impl.stat s h) → Within (impl.stat s h) i n

/-- Reading a block changes nothing. -/
def Reads (impl : Impl σ H) : Prop := ∀ s h i buf, (impl.readBlocks s h i buf).1 = s

end Spec

theorem bitmapLen_le (n : Nat) : bitmapLen n ≤ n + 7 := by unfold bitmapLen; omega

/-- A fetch that passes the checks of the cache is within the object. -/
theorem fetchable_within {st : FileStat} (ha : Addressable st) {i n : Nat} (h : (statShape st).Fetchable i n) : Within st i n := by
  unfold statShape Shape.Fetchable at h
  simp only at h
  obtain ⟨h1, h2, h3, h4⟩ := h
  rcases ha with h0 | ⟨hb, hn, hm⟩
  · rw [h0] at h1
    exact absurd h1 (by simp [Stream.toUint, bitmapLen])
  · obtain ⟨b, hb'⟩ := Int.eq_ofNat_of_zero_le (Int.le_of_lt hb)
    obtain ⟨t, ht'⟩ := Int.eq_ofNat_of_zero_le hn
    unfold Within
    rw [hb'] at hb hm h2 h3 h4 ⊢
    rw [ht'] at hm h1 h3 ⊢
    have hb0 : 0 < b := by omega
    have hm' : (t + 8) * b < 2 ^ 64 := by
      have : (((t + 8) * b : Nat) : Int) < 2 ^ 64 := by push_cast; exact hm
      omega
    have hb1 : b ≤ (t + 8) * b := Nat.le_mul_of_pos_left _ (by omega)
    have ht1 : t + 8 ≤ (t + 8) * b := Nat.le_mul_of_pos_right _ hb0
    have tb : Stream.toUint (b : Int) = b := Stream.toUint_nat (by omega)
    have tt : Stream.toUint (t : Int) = t := Stream.toUint_nat (by omega)
    rw [tb] at h2 h3 h4
    rw [tt] at h1 h3
    have hi := bitmapLen_le t
    have hib : (i + 1) * b ≤ (t + 8) * b := Nat.mul_le_mul_right b (by omega)
    have hexp : (i + 1) * b = i * b + b := Nat.succ_mul i b
    have htb : b * t ≤ (t + 8) * b := by rw [Nat.mul_comm]; exact Nat.mul_le_mul_right b (by omega)
    have e1 : u64 (i * b) = i * b := Nat.mod_eq_of_lt (by omega)
    rw [e1] at h2 h3 h4
    have e2 : u64 (i * b + b) = i * b + b := Nat.mod_eq_of_lt (by omega)
    rw [e2] at h2 h3 h4
    have e3 : u64 (b * t) = b * t := Nat.mod_eq_of_lt (by omega)
    rw [e3] at h3
    refine ⟨1, by omega, ?_, ?_⟩
    · push_cast; omega
    · have : (i + 1) * b ≤ t * b := by rw [Nat.mul_comm t b]; omega
      have := Nat.le_of_mul_le_mul_right this hb0
      omega

/-- Fetching within the object in states that do not change. -/
def Held (P : σ → Call H → Prop) (s0 : σ) (x y : σ × List (σ × Call H)) : Prop := x.1 = s0 → y.1 = s0 ∧ Added P x y

theorem Held.pre (P : σ → Call H → Prop) (s0 : σ) : Pre (Held P s0) :=
  ⟨fun x h => ⟨h, (Added.pre P).refl x⟩, fun h k hx => by
    obtain ⟨h1, h2⟩ := h hx
    obtain ⟨k1, k2⟩ := k h1
    exact ⟨k1, (Added.pre P).trans h2 k2⟩⟩

theorem held_fetch {impl : Impl σ H} (hi : Reads impl) {s0 : σ} {h : H} {sh : Shape} (hsh : sh = statShape (impl.stat s0 h)) (x : σ × List (σ × Call H)) (i : Nat) (buf : Bytes)
    (hf : sh.Fetchable i buf.length) : Held (ReadsWithin impl) s0 x ((recording impl).readBlocks x h i buf).1 := by
  intro hx
  subst hx
  refine ⟨hi _ _ _ _, Added.one ?_⟩
  intro h' i' n' hc ha
  cases hc
  rw [hsh] at hf
  exact fetchable_within ha hf

theorem looks_within {impl : Impl σ H} (hi : Reads impl) : Looks (Added (ReadsWithin impl)) (recording impl) where
  toPre := Added.pre _
  getObject x n h := Added.one fun _ _ _ hc _ => by cases hc
  close x h := Added.one fun _ _ _ hc _ => by cases hc
  contents d hd e x x' r h := by
    refine ⟨?_, fun _ _ => trivial⟩
    refine (contents_frame (Held.pre (ReadsWithin impl) x.1) d e x (fun h hx s i buf hf => ?_) h rfl).2
    rw [hd] at hf ⊢
    exact held_fetch hi rfl s i buf hf

section
variable (cfg : Cfg) {impl : Impl σ H} (hi : Reads impl) (mf : MountFlags) (wd : Str) (fuel : Nat) (p : Str)
include hi

/-- C103: ReadBlocks is only called with whole blocks that are blocks of the object, by every operation on a path that does not write: in every configuration of the
code, for every implementation whose reads change nothing, every path and from every state. -/
theorem C103_queries : Only (ReadsWithin impl) (stat (recorded cfg impl mf wd) fuel p) ∧ Only (ReadsWithin impl) (lstat (recorded cfg impl mf wd) fuel p) ∧
    Only (ReadsWithin impl) (readFile (recorded cfg impl mf wd) fuel p) ∧ Only (ReadsWithin impl) (readlink (recorded cfg impl mf wd) fuel p) ∧
    Only (ReadsWithin impl) (chdir (recorded cfg impl mf wd) fuel p) ∧ Only (ReadsWithin impl) (readDir (recorded cfg impl mf wd) fuel p) := by
  have L := looks_within hi
  have P := L.toPre
  obtain ⟨k1, k2, k3, k4, k5⟩ := resolve_frame (recorded cfg impl mf wd) L fuel
  have kc := close_frame (recorded cfg impl mf wd) L
  have ks := Keeps.statOf (E := fun _ => True) P (recorded cfg impl mf wd)
  refine ⟨only_of_keeps (Keeps.andThen P (k2 _) fun e => Keeps.deferred P (kc e) (ks e)),
    only_of_keeps (Keeps.andThen P (k1 _) fun e => Keeps.deferred P (kc e) (Keeps.andThen P (k4 e) fun e' => Keeps.deferred P (kc e') (ks e'))),
    only_of_keeps (Keeps.andThen P (k2 _) fun e => Keeps.deferred P (kc e) (L.contents _ rfl e)), ?_,
    only_of_keeps (Keeps.andThen P (k2 _) fun e => Keeps.deferred P (kc e) (chdirTo_frame _ L e)),
    only_of_keeps (path_frame _ L fuel _ fun e => Keeps.deferred L.toPre (close_frame _ L e) (readDirObject_frame _ L
      (lists_recorded fun _ h => fun _ _ _ hc _ => by cases hc) e))⟩
  exact only_of_keeps (Keeps.ite (fun _ => Keeps.fail P trivial) fun _ => Keeps.andThen P (k1 _) fun e => Keeps.deferred P (kc e) <|
    Keeps.andThen P (ks e) fun st => Keeps.ite (fun _ => Keeps.fail P trivial) fun _ => L.contents _ rfl e)

/-- C103: the same for the operations on attributes, and MkdirAll. -/
theorem C103_attributes (mode : FileMode) (uid gid : Int) (atime mtime : Time) :
    Only (ReadsWithin impl) (chmod (recorded cfg impl mf wd) fuel p mode) ∧ Only (ReadsWithin impl) (chown (recorded cfg impl mf wd) fuel p uid gid) ∧
    Only (ReadsWithin impl) (lchown (recorded cfg impl mf wd) fuel p uid gid) ∧ Only (ReadsWithin impl) (chtimes (recorded cfg impl mf wd) fuel p atime mtime) ∧
    Only (ReadsWithin impl) (mkdirAll (recorded cfg impl mf wd) fuel p mode) := by
  have L := looks_within hi
  refine ⟨?_, ?_, ?_, ?_, only_of_keeps (mkdirAll_frame _ L mode (fun x n h => Added.one fun _ _ _ hc _ => by cases hc) (dirPerm_idem mode) fuel p mode rfl)⟩
  · refine only_of_keeps (path_frame _ L fuel _ fun e => optionalCall_frame _ L e _ fun h m hm x => ?_)
    simp only [recording, Option.map_map, Option.map_eq_some_iff] at hm
    obtain ⟨g, _, rfl⟩ := hm
    exact Added.one fun _ _ _ hc _ => by cases hc
  · refine only_of_keeps (path_frame _ L fuel _ fun e => optionalCall_frame _ L e _ fun h m hm x => ?_)
    simp only [recording, Option.map_map, Option.map_eq_some_iff] at hm
    obtain ⟨g, _, rfl⟩ := hm
    exact Added.one fun _ _ _ hc _ => by cases hc
  · refine only_of_keeps (Keeps.andThen L.toPre ((resolve_frame _ L fuel).1 _) fun e => optionalCall_frame _ L e _ fun h m hm x => ?_)
    simp only [recording, Option.map_map, Option.map_eq_some_iff] at hm
    obtain ⟨g, _, rfl⟩ := hm
    exact Added.one fun _ _ _ hc _ => by cases hc
  · refine only_of_keeps (path_frame _ L fuel _ fun e => optionalCall_frame _ L e _ fun h m hm x => ?_)
    simp only [recording, Option.map_map, Option.map_eq_some_iff] at hm
    obtain ⟨g, _, rfl⟩ := hm
    exact Added.one fun _ _ _ hc _ => by cases hc

/-- C103: the same for the operations that create, remove and change objects. -/
theorem C103_changes (flags : Flags.IOFlags) (perm : FileMode) (q : Str) :
    Only (ReadsWithin impl) (openFile (recorded cfg impl mf wd) fuel p flags perm) ∧ Only (ReadsWithin impl) (mkdir (recorded cfg impl mf wd) fuel p perm) ∧
    Only (ReadsWithin impl) (remove (recorded cfg impl mf wd) fuel p) ∧ Only (ReadsWithin impl) (removeAll (recorded cfg impl mf wd) fuel p) ∧
    Only (ReadsWithin impl) (link (recorded cfg impl mf wd) fuel p q) ∧ Only (ReadsWithin impl) (truncate (recorded cfg impl mf wd) fuel p) := by
  have L := looks_within hi
  have P := L.toPre
  have hl := lists_recorded (impl := impl) (P := ReadsWithin impl) fun _ h => fun _ _ _ hc _ => by cases hc
  have hu' : ∀ (x : σ × List (σ × Call H)) h, Added (ReadsWithin impl) x ((recording impl).unlink x h).1 := fun x h => Added.one fun _ _ _ hc _ => by cases hc
  have hu := unlink_frame (recorded cfg impl mf wd) hu'
  refine ⟨?_, ?_, ?_, ?_, ?_, ?_⟩
  · exact only_of_keeps (openFile_frame _ L fuel p flags perm (fun _ x n h => Added.one fun _ _ _ hc _ => by cases hc) fun _ x h => Added.one fun _ _ _ hc _ => by cases hc)
  · exact only_of_keeps (mkdir_frame _ L fuel p perm fun x n h => Added.one fun _ _ _ hc _ => by cases hc)
  · refine only_of_keeps (path_frame _ L fuel _ fun e => Keeps.deferred P (close_frame _ L e) <| Keeps.andThen P (Keeps.statOf P _ e) fun st =>
      Keeps.ite (fun _ => ?_) fun _ => Keeps.ite (fun _ => Keeps.fail P trivial) fun _ => hu e)
    rcases he : e.optional cfg (recording impl).listDir with _ | f
    · exact Keeps.crash
    · obtain ⟨x, hx, hf⟩ := optional_some (d := recorded cfg impl mf wd) he
      exact Keeps.andThen P (Keeps.call fun s => ⟨hl x f hf s, fun _ _ => trivial⟩) fun names =>
        Keeps.ite (fun _ => Keeps.fail P trivial) fun _ => hu e
  · refine only_of_keeps (path_frame _ L fuel _ fun e => Keeps.deferred P (close_frame _ L e) <| Keeps.andThen P (Keeps.statOf P _ e) fun st =>
      Keeps.ite (fun _ => Keeps.fail P trivial) fun _ => Keeps.method fun h => ?_)
    intro x x' r hx
    simp only at hx
    split at hx
    · exact Keeps.fail (E := fun _ => True) P trivial x x' r hx
    · exact removeDirectory_frame (recorded cfg impl mf wd) L hu' hl fuel e x x' r hx
  · refine only_of_keeps (link_frame _ L fuel p q fun f hf x a b n => ?_)
    simp only [recording, Option.map_eq_some_iff] at hf
    obtain ⟨g, _, rfl⟩ := hf
    exact Added.one fun _ _ _ hc _ => by cases hc
  · refine only_of_keeps (path_frame _ L fuel _ fun e => Keeps.deferred P (close_frame _ L e) <| Keeps.andThen P (Keeps.statOf P _ e) fun st =>
      Keeps.ite (fun _ => Keeps.fail P trivial) fun _ => Keeps.method fun h => ?_)
    intro x x' r hx
    refine ⟨?_, fun _ _ => trivial⟩
    have hone : Added (ReadsWithin impl) x ((recording impl).resize x h 0).1 := Added.one fun _ _ _ hc _ => by cases hc
    simp only at hx
    rcases hr : (recording impl).resize x h 0 with ⟨y, _ | e⟩
    · rw [hr] at hx hone; simp only at hx; cases hx; exact hone
    · rw [hr] at hx hone; simp only at hx; cases hx; exact hone

end

/-! ### Open files -/

/-- After truncating to nothing no block is left to be fetched. -/
theorem truncated_empty {S : Type} (b : Backend S) (x : Stream.Stm S) : (Stream.truncate b x 0).All fun r => r.2 = none → r.1.st.c.loaded.length = 0 := by
  unfold Stream.truncate
  refine .ite (fun _ => .ret fun h => by cases h) fun _ => .ite (fun _ => .ret fun h => by cases h) fun _ => ?_
  refine (Outcome.All.any _).bind fun nb hnb => ?_
  have h0 : nb = 0 := by
    unfold Cache.getMinBlocksForSize at hnb
    split at hnb
    · cases hnb
    · rename_i hb
      cases hnb
      rw [show Stream.toUint 0 = 0 from rfl, Nat.zero_add]
      refine Nat.div_eq_of_lt (Nat.lt_of_le_of_lt (Nat.mod_le _ _) ?_)
      omega
  subst h0
  refine Outcome.All.bind (P := fun r => (∀ u, r.2 = .ok u → r.1.c.total = 0 ∧ r.1.c.loaded.length = 0)) ?_ fun r h1 => ?_
  · unfold BlockCache.resize
    rcases hfe : b.resize x.st.s 0 with ⟨s1, _ | e⟩
    · refine .ite (fun _ => (Outcome.All.any _).bind fun c hc => .ret fun _ _ => ⟨rfl, ?_⟩) fun _ => .panic
      rw [Nat.zero_sub, markLoop] at hc
      cases hc
      simp [bitCopy, bitmapLen]
    · exact .ret fun _ h => by cases h
  · rcases r with ⟨st', e | u⟩
    · exact .ret fun h => by cases h
    · refine .ite (fun _ => (Stream.sync_none b _ (h1 u rfl).1).imp fun r h2 _ => ?_) fun _ => .ret fun _ => (h1 u rfl).2
      rw [h2]; exact (h1 u rfl).2

/-- What can be fetched through the file is within the object. -/
def Fitting (impl : Impl σ H) (f : File H) (s : σ) : Prop :=
  ∃ h, f.objectHandle.inner = some h ∧ ∀ i n, f.cache.shape.Fetchable i n → Addressable (impl.stat s h) → Within (impl.stat s h) i n

theorem newFile_fitting {impl : Impl σ H} (d : Drv (σ × List (σ × Call H)) H) (hd : d.impl = recording impl) {e : Ext H} {flags : Flags.IOFlags}
    {x x' : σ × List (σ × Call H)} {f : File H} (hn : newFile d e flags x = .ret (x', .ok f)) : Fitting impl f x'.1 := by
  obtain ⟨k, _, k3⟩ := newFile_spec d e _ hn
  have hoh := k3 f rfl
  rcases e with ⟨_ | h, p⟩
  · unfold newFile M.andThen statOf Ext.method at hn; cases hn
  refine ⟨h, by rw [hoh], fun i n hf ha => ?_⟩
  rcases ht : Flags.truncate flags with _ | _
  · rw [newFile_shape d ht rfl hn, hd] at hf
    rw [(k ht).1] at ha ⊢
    exact fetchable_within ha hf
  · have h0 : f.cache.loaded.length = 0 := by
      unfold newFile at hn
      rw [andThen_ok (a := d.impl.stat x h) (s' := x) rfl] at hn
      simp only [Ext.method] at hn
      rcases hc : BlockCache.new (Stream.toUint (d.impl.stat x h).blockSize) (Stream.toUint (d.impl.stat x h).numBlocks) with c | _ | _
      · rw [hc] at hn
        simp only at hn
        rcases hs : Stream.new (backendOf d.impl h) (d.impl.stat x h).size ⟨c, x⟩ flags with ⟨o, er⟩ | _ | _
        · rw [hs] at hn
          rcases o with _ | y <;> rcases er with _ | er
          · simp only at hn; cases hn
          · simp only at hn; cases hn
          · simp only at hn
            cases hn
            unfold Stream.new at hs
            split at hs
            · simp only [Outcome.pure_eq] at hs; cases hs
            · simp only [ht, if_true] at hs
              rcases h2 : Stream.truncate (backendOf d.impl h) ⟨(d.impl.stat x h).size, 0, ⟨c, x⟩, flags⟩ 0 with ⟨y', er⟩ | _ | _
              · rw [h2] at hs
                cases hs
                exact truncated_empty _ _ _ h2 rfl
              · rw [h2] at hs; cases hs
              · rw [h2] at hs; cases hs
          · simp only at hn; cases hn
        · rw [hs] at hn; cases hn
        · rw [hs] at hn; cases hn
      · rw [hc] at hn; cases hn
      · rw [hc] at hn; cases hn
    exfalso
    have := hf.1
    unfold Cache.shape at this
    simp only at this
    omega

theorem openFile_fitting {impl : Impl σ H} (d : Drv (σ × List (σ × Call H)) H) (hd : d.impl = recording impl) {fuel : Nat} {p : Str} {flags : Flags.IOFlags} {perm : FileMode}
    {x x' : σ × List (σ × Call H)} {f : File H} (hn : openFile d fuel p flags perm x = .ret (x', .ok f)) : Fitting impl f x'.1 := by
  unfold openFile at hn
  split at hn
  · cases hn
  · unfold M.either at hn
    rcases h1 : getFollow d fuel (normalizePath d.workingDirPath p) x with ⟨x1, r⟩ | _ | _
    · rw [h1] at hn
      simp only at hn
      have tail : ∀ (m : M (σ × List (σ × Call H)) (Ext H)), M.andThen m (fun object => M.andThen (statOf d object) fun st =>
          if (!st.isFile) = true then M.fail .isADirectory else newFile d object flags) x1 = .ret (x', .ok f) → Fitting impl f x'.1 := by
        intro m hm
        unfold M.andThen at hm
        rcases h2 : m x1 with ⟨x2, er | e⟩ | _ | _
        · rw [h2] at hm; cases hm
        · rw [h2] at hm
          simp only at hm
          rcases h3 : statOf d e x2 with ⟨x3, er | st⟩ | _ | _
          · rw [h3] at hm; cases hm
          · rw [h3] at hm
            simp only at hm
            split at hm
            · cases hm
            · exact newFile_fitting d hd hm
          · rw [h3] at hm; cases hm
          · rw [h3] at hm; cases hm
        · rw [h2] at hm; cases hm
        · rw [h2] at hm; cases hm
      exact tail _ hn
    · rw [h1] at hn; cases hn
    · rw [h1] at hn; cases hn

namespace Spec
/-- Read from an open file again and again, into buffers of these lengths. -/
def readTimes (d : Drv σ H) : List Nat → File H → M σ (File H)
  | [], f => M.ok f
  | n :: ns, f => M.andThen (f.read d n) fun r => readTimes d ns r.1
end Spec

theorem read_fitting {impl : Impl σ H} (hi : Reads impl) (d : Drv (σ × List (σ × Call H)) H) (hd : d.impl = recording impl) {f : File H} {x : σ × List (σ × Call H)} (hf : Fitting impl f x.1)
    {n : Nat} {x' : σ × List (σ × Call H)} {r : Except Err (File H × Bytes × Option Stream.SErr)} (hn : f.read d n x = .ret (x', r)) :
    Added (ReadsWithin impl) x x' ∧ ∀ a, r = .ok a → Fitting impl a.1 x'.1 := by
  obtain ⟨h, hin, hfit⟩ := hf
  unfold File.read Ext.method at hn
  rw [hin] at hn
  simp only at hn
  rcases h1 : Stream.read (backendOf d.impl h) (f.streamIn x) (List.replicate n 0) with ⟨y, rr⟩ | _ | _
  · have k := Stream.read_frame (Held.pre (ReadsWithin impl) x.1).refl (Held.pre (ReadsWithin impl) x.1).trans (backendOf d.impl h) (f.streamIn x) (fun s i buf hfe => by
      rw [hd]
      intro hs
      refine ⟨(hi _ _ _ _).trans hs, Added.one fun h' i' n' hc ha => ?_⟩
      cases hc
      rw [hs] at ha ⊢
      exact hfit _ _ hfe ha) _ _ h1
    rw [h1] at hn
    cases hn
    obtain ⟨hs, ha⟩ := k.rel rfl
    refine ⟨ha, fun a hx => ?_⟩
    cases hx
    refine ⟨h, hin, fun i n hfe ha => ?_⟩
    simp only at hs ha ⊢
    rw [hs] at ha ⊢
    refine hfit i n ?_ ha
    have := k.shape
    simp only [File.after, File.streamIn] at hfe this ⊢
    rw [this] at hfe
    exact hfe
  · rw [h1] at hn; cases hn
  · rw [h1] at hn; cases hn

/-- C103: so are the reads of a file opened with any flags, until something is written or the object changes. -/
theorem C103_file (cfg : Cfg) {impl : Impl σ H} (hi : Reads impl) (mf : MountFlags) (wd : Str) (fuel : Nat) (p : Str) (flags : Flags.IOFlags) (perm : FileMode) (ns : List Nat) :
    Only (ReadsWithin impl) (M.andThen (openFile (recorded cfg impl mf wd) fuel p flags perm) (readTimes (recorded cfg impl mf wd) ns)) := by
  have P := Added.pre (ReadsWithin impl)
  have reads : ∀ (ns : List Nat) (f : File H) (x x' : σ × List (σ × Call H)) r, Fitting impl f x.1 → readTimes (recorded cfg impl mf wd) ns f x = .ret (x', r) →
      Added (ReadsWithin impl) x x' := by
    intro ns
    induction ns with
    | nil => intro f x x' r _ hn; cases hn; exact P.refl _
    | cons n ns ih =>
      intro f x x' r hf hn
      unfold readTimes M.andThen at hn
      rcases h1 : f.read (recorded cfg impl mf wd) n x with ⟨x1, er | a⟩ | _ | _
      · rw [h1] at hn; cases hn
        exact (read_fitting hi (recorded cfg impl mf wd) rfl hf h1).1
      · rw [h1] at hn
        obtain ⟨k1, k2⟩ := read_fitting hi (recorded cfg impl mf wd) rfl hf h1
        exact P.trans k1 (ih _ _ _ _ (k2 a rfl) hn)
      · rw [h1] at hn; cases hn
      · rw [h1] at hn; cases hn
  intro s log s' log' r hn
  unfold M.andThen at hn
  rcases h1 : openFile (recorded cfg impl mf wd) fuel p flags perm (s, log) with ⟨⟨s1, log1⟩, er | f⟩ | _ | _
  · rw [h1] at hn; cases hn
    exact (C103_changes cfg hi mf wd fuel p flags perm []).1 _ _ _ _ _ h1
  · rw [h1] at hn
    obtain ⟨c1, e1, k1⟩ := (C103_changes cfg hi mf wd fuel p flags perm []).1 _ _ _ _ _ h1
    obtain ⟨c2, e2, k2⟩ := reads ns f _ _ _ (openFile_fitting (recorded cfg impl mf wd) rfl h1) hn
    refine ⟨c1 ++ c2, by simp only at e2; rw [e2, e1, List.append_assoc], fun c hc => ?_⟩
    exact (List.mem_append.mp hc).elim (k1 c) (k2 c)
  · rw [h1] at hn; cases hn
  · rw [h1] at hn; cases hn

/-- A file of 5 bytes in blocks of 4, and its reads. -/
def fileOfFive : List Obj := [⟨str! "f", 0o644, [1, 2, 3, 4, 5]⟩]

theorem flat_reads (b : Nat) : Reads (flat b) := (flat_still b).read
example : Addressable ((flat 4).stat fileOfFive (some (str! "f"))) := .inr (by decide +kernel)
example : Within ((flat 4).stat fileOfFive (some (str! "f"))) 1 4 ∧ ¬ Within ((flat 4).stat fileOfFive (some (str! "f"))) 2 4 := by
  refine ⟨⟨1, by decide, by decide +kernel, by decide +kernel⟩, fun ⟨k, h1, _, h3⟩ => ?_⟩
  have : ((flat 4).stat fileOfFive (some (str! "f"))).numBlocks = 2 := by decide +kernel
  rw [this] at h3
  omega
example : callsOf (M.andThen (openFile (recorded keeping (flat 4) 3 (str! "/")) 9 (str! "/f") 0 0) (readTimes (recorded keeping (flat 4) 3 (str! "/")) [2, 1, 3]) (fileOfFive, [])) =
    some [.getObject (str! "f") none, .close none, .readBlocks (some (str! "f")) 0 4, .readBlocks (some (str! "f")) 1 4] := by decide +kernel
example : callsOf (readFile (recorded keeping (flat 4) 3 (str! "/")) 9 (str! "/f") (fileOfFive, [])) =
    some [.getObject (str! "f") none, .close none, .readBlocks (some (str! "f")) 0 4, .readBlocks (some (str! "f")) 1 4, .close (some (str! "f"))] := by decide +kernel

end Disko.Driver
