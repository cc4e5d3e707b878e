import Verif.Fat.Props4
/-! C132, C133: listing directories and walking paths; also ReadFile of directories and missing files (C76) and the parent in Remove (C54).

The theorems hold for every repair `cfg` of the decoding of entries, `shipped` included. -/
namespace Disko.Fat
open Disko
variable {σ : Type}

/-! ### Specification: the entries of a directory -/

/-- The 32-byte slots of a cluster. -/
def slotsOf (n : Nat) (data : Bytes) : List Bytes := (List.range n).map fun i => (data.drop (32 * i)).take 32

/-- `slots` hold the entries `ds`, up to a slot with the end mark (`ended`) or through to the last slot. -/
inductive Slots (cfg : Cfg) (bs : BootSector) : List Bytes → List Dirent → (ended : Bool) → Prop where
  | full : Slots cfg bs [] [] false
  | mark {slot : Bytes} {rest : List Bytes} {raw : RawDirent} : slot.length = 32 → cfg.parse slot = .ret raw →
      newDirentFromRawIn cfg bs raw = .ret (.error .notFound) → Slots cfg bs (slot :: rest) [] true
  | entry {slot : Bytes} {rest : List Bytes} {raw : RawDirent} {d : Dirent} {ds : List Dirent} {ended : Bool} : slot.length = 32 →
      cfg.parse slot = .ret raw → newDirentFromRawIn cfg bs raw = .ret (.ok d) → Slots cfg bs rest ds ended →
      Slots cfg bs (slot :: rest) (d :: ds) ended

/-- The clusters hold the entries `ds`, up to one with the end mark (`ended`) or, as the specification allows, through to the last cluster. -/
inductive Holds (cfg : Cfg) (fs : FS σ) (st : σ) : List UInt32 → List Dirent → (ended : Bool) → Prop where
  | full : Holds cfg fs st [] [] false
  | mark {c : UInt32} {rest : List UInt32} {data : Bytes} {ds : List Dirent} : readCluster fs st c = .ok data →
      Slots cfg fs.bootSector (slotsOf fs.bootSector.direntsPerCluster data) ds true → Holds cfg fs st (c :: rest) ds true
  | more {c : UInt32} {rest : List UInt32} {data : Bytes} {ds ds' : List Dirent} {ended : Bool} : readCluster fs st c = .ok data →
      Slots cfg fs.bootSector (slotsOf fs.bootSector.direntsPerCluster data) ds false → Holds cfg fs st rest ds' ended →
      Holds cfg fs st (c :: rest) (ds ++ ds') ended

/-- `d` is the only entry of that name. -/
def Only (es : List Dirent) (d : Dirent) : Prop :=
  ∃ pre post, es = pre ++ d :: post ∧ (∀ e ∈ pre, e.name ≠ d.name) ∧ ∀ e ∈ post, e.name ≠ d.name

/-- The directory `d` holds the entries `ds`. -/
def DirHolds (cfg : Cfg) (fs : FS σ) (st : σ) (d : Dirent) (ds : List Dirent) (ended : Bool) : Prop :=
  d.isDir = true ∧ ∃ cs, Chain fs st d.firstCluster cs ∧ Holds cfg fs st cs ds ended

/-- C132: Readdir of a directory in the root directory returns its entries in order, where the entries are decoded as the specification says and
the code decodes them as `code` says. -/
def C132_statement_for (code : Calendar → Cfg) : Prop :=
  ∀ (cal : Calendar) (fs : FS ExState) (st : ExState) (es : List Dirent) (d : Dirent) (ds : List Dirent) (ended : Bool),
    fs.listRootDirectory st = .ok es → Only es d → Path.Plain d.name → DirHolds (repaired cal) fs st d ds ended →
    ∃ fuel ds', readdir (code cal) fuel fs st d.name = .ret (.ok ds') ∧ ds'.map (·.name) = ds.map (·.name)

/-- C132, of the code as it is. -/
def C132_statement : Prop := C132_statement_for fun _ => shipped

/-! ### Helpers -/
namespace ListLemmas

theorem goSlice_slot {data : Bytes} {i : Nat} (h : ((data.drop (32 * i)).take 32).length = 32) :
    goSlice data (i * direntSize) (i * direntSize + direntSize) = .ret ((data.drop (32 * i)).take 32) := by
  unfold goSlice direntSize
  rw [List.length_take, List.length_drop] at h
  rw [if_pos (by omega), Nat.mul_comm i 32]
  congr 2
  omega

/-- The slots from `i` on. -/
def slotsFrom (n i : Nat) (data : Bytes) : List Bytes := (List.range n).map fun j => (data.drop (32 * (i + j))).take 32

theorem slotsFrom_succ (n i : Nat) (data : Bytes) :
    slotsFrom (n + 1) i data = (data.drop (32 * i)).take 32 :: slotsFrom n (i + 1) data := by
  unfold slotsFrom
  rw [List.range_succ_eq_map, List.map_cons, List.map_map]
  congr 1
  refine List.map_congr_left fun j _ => ?_
  show List.take 32 (List.drop (32 * (i + (j + 1))) data) = _
  rw [show i + (j + 1) = i + 1 + j by omega]

theorem loop_slots {cfg : Cfg} {bs : BootSector} {data : Bytes} : ∀ (n i : Nat) (acc ds : List Dirent) (ended : Bool),
    Slots cfg bs (slotsFrom n i data) ds ended → clusterToDirentLoop cfg bs data n i acc = .ret (.ok (acc ++ ds)) := by
  intro n
  induction n with
  | zero =>
    intro i acc ds ended h
    cases h
    rw [List.append_nil]; rfl
  | succ n ih =>
    intro i acc ds ended h
    rw [slotsFrom_succ] at h
    unfold clusterToDirentLoop
    cases h with
    | mark h1 h2 h3 =>
      rw [goSlice_slot h1]
      show (match cfg.parse _ with | .panic => _ | .timeout => _ | .ret raw => _) = _
      rw [h2]
      simp only
      rw [h3, List.append_nil]
    | entry h1 h2 h3 h4 =>
      rw [goSlice_slot h1]
      show (match cfg.parse _ with | .panic => _ | .timeout => _ | .ret raw => _) = _
      rw [h2]
      simp only
      rw [h3]
      simp only
      rw [ih (i + 1) _ _ ended h4, List.append_assoc]
      rfl

theorem slice_slots {cfg : Cfg} {bs : BootSector} {data : Bytes} {ds : List Dirent} {ended : Bool}
    (h : Slots cfg bs (slotsOf bs.direntsPerCluster data) ds ended) : clusterToDirentSlice cfg bs data = .ret (.ok ds) := by
  have e : slotsOf bs.direntsPerCluster data = slotsFrom bs.direntsPerCluster 0 data := by
    unfold slotsOf slotsFrom; simp
  rw [e] at h
  unfold clusterToDirentSlice
  rw [loop_slots _ _ _ _ _ h]; rfl

theorem slots_length {cfg : Cfg} {bs : BootSector} {slots : List Bytes} {ds : List Dirent} {ended : Bool} (h : Slots cfg bs slots ds ended) :
    (ended = false → ds.length = slots.length) ∧ (ended = true → ds.length < slots.length) := by
  induction h with
  | full => exact ⟨fun _ => rfl, fun h => by cases h⟩
  | mark => exact ⟨(fun h => by cases h), fun _ => by simp⟩
  | entry _ _ _ _ ih => exact ⟨fun h => by simp [ih.1 h], fun h => by simpa using ih.2 h⟩

theorem slotsOf_length (n : Nat) (data : Bytes) : (slotsOf n data).length = n := by unfold slotsOf; simp

/-- Reading a directory from its i-th cluster on. -/
theorem readDir_holds {cfg : Cfg} {fs : FS σ} {st : σ} {d : Dirent} {all : List UInt32} (hc : Chain fs st d.firstCluster all) :
    ∀ (rest : List UInt32) (i : Nat) (acc ds : List Dirent) (ended : Bool) (fuel : Nat), Holds cfg fs st rest ds ended → all.drop i = rest →
    rest.length < fuel →
    readDirLoop cfg fs st d fuel i acc = if ended then .ret (.ok (acc ++ ds)) else .ret (.error .invalidArgument) := by
  intro rest i acc ds ended fuel h
  induction h generalizing i acc fuel with
  | full =>
    intro hd hf
    match fuel, hf with
    | fuel + 1, _ =>
      have hl : all.length ≤ i := List.drop_eq_nil_iff.mp hd
      unfold readDirLoop readClusterOfDirent
      rw [C52_index fs st _ _ hc, List.getElem?_eq_none hl]
      rfl
  | @mark c rest data ds h1 h2 =>
    intro hd hf
    match fuel, hf with
    | fuel + 1, _ =>
      have hi : all[i]? = some c := by
        have := congrArg List.head? hd
        rwa [List.head?_drop] at this
      have hlen := (slots_length h2).2 rfl
      rw [slotsOf_length] at hlen
      unfold readDirLoop readClusterOfDirent
      rw [C52_index fs st _ _ hc, hi]
      simp only
      rw [h1]
      simp only
      rw [slice_slots h2]
      simp only [R.andThen]
      rw [if_pos hlen]; rfl
  | @more c rest data ds ds' ended h1 h2 h3 ih =>
    intro hd hf
    match fuel, hf with
    | fuel + 1, hf =>
      have hi : all[i]? = some c := by
        have := congrArg List.head? hd
        rwa [List.head?_drop] at this
      have hlen := (slots_length h2).1 rfl
      rw [slotsOf_length] at hlen
      unfold readDirLoop readClusterOfDirent
      rw [C52_index fs st _ _ hc, hi]
      simp only
      rw [h1]
      simp only
      rw [slice_slots h2]
      simp only [R.andThen]
      rw [if_neg (by omega), ih (i + 1) (acc ++ ds) fuel ?_ (by simp at hf; omega), List.append_assoc]
      have := congrArg List.tail hd
      rwa [List.tail_drop] at this

theorem readDir_dir {cfg : Cfg} {fs : FS σ} {st : σ} {d : Dirent} {ds : List Dirent} {ended : Bool} (h : DirHolds cfg fs st d ds ended) :
    ∃ n, ∀ fuel, n < fuel → readDirFromDirent cfg fuel fs st d = if ended then .ret (.ok ds) else .ret (.error .invalidArgument) := by
  obtain ⟨hd, cs, hc, hh⟩ := h
  refine ⟨cs.length, fun fuel hf => ?_⟩
  unfold readDirFromDirent
  rw [if_neg (by simp [hd]), readDir_holds hc cs 0 [] ds ended fuel hh rfl hf]
  rfl

theorem matchEntries_only {cfg : Cfg} {fs : FS σ} {st : σ} {fuel : Nat} {d : Dirent} :
    ∀ (pre post : List Dirent) (cur : Dirent) (cs : List Dirent), (∀ e ∈ pre, e.name ≠ d.name) → (∀ e ∈ post, e.name ≠ d.name) →
    matchEntries cfg fuel fs st d.name (pre ++ d :: post) cur cs =
      R.andThen (readDirFromDirent cfg fuel fs st d) fun ds => .ret (.ok (d, ds)) := by
  intro pre
  induction pre with
  | nil =>
    intro post cur cs _ h2
    show matchEntries cfg fuel fs st d.name (d :: post) cur cs = _
    unfold matchEntries
    rw [if_pos rfl]
    congr 1
    funext ds
    exact matchEntries_none post d ds h2
  | cons e pre ih =>
    intro post cur cs h1 h2
    show matchEntries cfg fuel fs st d.name (e :: (pre ++ d :: post)) cur cs = _
    unfold matchEntries
    rw [if_neg (h1 e List.mem_cons_self)]
    exact ih post cur cs (fun x hx => h1 x (List.mem_cons_of_mem _ hx)) h2

theorem match_only {cfg : Cfg} {fs : FS σ} {st : σ} {fuel : Nat} {d cur : Dirent} {es cs : List Dirent} (h : Only es d) :
    matchEntries cfg fuel fs st d.name es cur cs = R.andThen (readDirFromDirent cfg fuel fs st d) fun ds => .ret (.ok (d, ds)) := by
  obtain ⟨pre, post, rfl, h1, h2⟩ := h
  exact matchEntries_only pre post cur cs h1 h2

theorem resolve_only {cfg : Cfg} {fs : FS σ} {st : σ} {fuel : Nat} {d : Dirent} {es : List Dirent} (hl : fs.listRootDirectory st = .ok es)
    (h : Only es d) (hp : Path.Plain d.name) :
    resolvePathToDirent cfg fuel fs st d.name = R.andThen (readDirFromDirent cfg fuel fs st d) fun _ => .ret (.ok d) := by
  unfold resolvePathToDirent
  simp only
  rw [Path.splitList_clean_plain hp, hl]
  show walk cfg fuel fs st [d.name] Dirent.zero es = _
  unfold walk
  rw [match_only h]
  cases readDirFromDirent cfg fuel fs st d with
  | ret x => cases x <;> rfl
  | panic => rfl
  | timeout => rfl

theorem readDir_mono {cfg : Cfg} {fs : FS σ} {st : σ} {d : Dirent} {x : Except Err (List Dirent)} : ∀ (fuel i : Nat) (acc : List Dirent),
    readDirLoop cfg fs st d fuel i acc = .ret x → readDirLoop cfg fs st d (fuel + 1) i acc = .ret x := by
  intro fuel
  induction fuel with
  | zero => intro i acc h; cases h
  | succ fuel ih =>
    intro i acc h
    unfold readDirLoop at h ⊢
    cases hr : readClusterOfDirent fs st d i with
    | error e => rw [hr] at h; exact h
    | ok data =>
      rw [hr] at h
      simp only at h ⊢
      cases hc : clusterToDirentSlice cfg fs.bootSector data with
      | ret y =>
        rw [hc] at h
        cases y with
        | error e => exact h
        | ok ds =>
          simp only [R.andThen] at h ⊢
          split
          · rename_i hlt; rw [if_pos hlt] at h; exact h
          · rename_i hlt; rw [if_neg hlt] at h; exact ih _ _ h
      | panic => rw [hc] at h; exact h
      | timeout => rw [hc] at h; exact h

theorem readDir_mono' {cfg : Cfg} {fs : FS σ} {st : σ} {d : Dirent} {x : Except Err (List Dirent)} (fuel k : Nat)
    (h : readDirFromDirent cfg fuel fs st d = .ret x) : readDirFromDirent cfg (fuel + k) fs st d = .ret x := by
  unfold readDirFromDirent at h ⊢
  split
  · rename_i hd; rw [if_pos hd] at h; exact h
  · rename_i hd
    rw [if_neg hd] at h
    induction k with
    | zero => exact h
    | succ k ih => exact readDir_mono _ _ _ ih

theorem readdir_dir {cfg : Cfg} {fs : FS σ} {st : σ} {fuel : Nat} {d : Dirent} {es ds : List Dirent} (hl : fs.listRootDirectory st = .ok es)
    (h : Only es d) (hp : Path.Plain d.name) (hr : readdir cfg fuel fs st d.name = .ret (.ok ds)) : readDirFromDirent cfg fuel fs st d = .ret (.ok ds) := by
  unfold readdir at hr
  rw [resolve_only hl h hp] at hr
  obtain ⟨a, h1, h2⟩ := R.andThen_ok hr
  obtain ⟨b, h3, h4⟩ := R.andThen_ok h1
  cases h4
  split at h2
  · cases h2
  · exact h2

end ListLemmas
open ListLemmas

/-! ### C132 -/

/-- C132, however decoding is repaired: Readdir of a directory that has an end mark returns exactly the entries before it, in order, over all the
clusters of its chain; Stat returns the entry's information. -/
theorem C132_lists_partial (cfg : Cfg) (fs : FS σ) (st : σ) (es : List Dirent) (d : Dirent) (ds : List Dirent) (hl : fs.listRootDirectory st = .ok es)
    (h : Only es d) (hp : Path.Plain d.name) (hd : DirHolds cfg fs st d ds true) :
    ∃ n, ∀ fuel, n < fuel → readdir cfg fuel fs st d.name = .ret (.ok ds) ∧ stat cfg fuel fs st d.name = .ret (.ok d.stat) := by
  obtain ⟨n, hn⟩ := readDir_dir hd
  refine ⟨n, fun fuel hf => ?_⟩
  unfold readdir stat
  rw [resolve_only hl h hp, hn fuel hf]
  simp only [R.andThen, if_true]
  rw [if_neg (by simp [hd.1]), hn fuel hf]
  exact ⟨rfl, trivial⟩

/-- C132: a directory whose last cluster is full, so that there is no end mark, can be neither listed nor looked up: the error is "invalid
argument". -/
theorem C132_full_directory_fails (cfg : Cfg) (fs : FS σ) (st : σ) (es : List Dirent) (d : Dirent) (ds : List Dirent)
    (hl : fs.listRootDirectory st = .ok es) (h : Only es d) (hp : Path.Plain d.name) (hd : DirHolds cfg fs st d ds false) :
    ∃ n, ∀ fuel, n < fuel → readdir cfg fuel fs st d.name = .ret (.error .invalidArgument) ∧
      stat cfg fuel fs st d.name = .ret (.error .invalidArgument) := by
  obtain ⟨n, hn⟩ := readDir_dir hd
  refine ⟨n, fun fuel hf => ?_⟩
  unfold readdir stat
  rw [resolve_only hl h hp, hn fuel hf]
  exact ⟨rfl, rfl⟩

/-- C132: if the first cluster read is shorter than a whole cluster (only one sector is ever read, C80) and its slots are all in use, listing
the directory or looking it up panics. -/
theorem C132_short_cluster_panics (cfg : Cfg) (fs : FS σ) (st : σ) (es : List Dirent) (d : Dirent) (ds : List Dirent) (data : Bytes) (k fuel : Nat)
    (hl : fs.listRootDirectory st = .ok es) (h : Only es d) (hp : Path.Plain d.name) (hd : d.isDir = true)
    (hr : readCluster fs st d.firstCluster = .ok data) (hlen : data.length = 32 * k) (hk : k < fs.bootSector.direntsPerCluster)
    (hs : Slots cfg fs.bootSector (slotsOf k data) ds false) (hf : 0 < fuel) :
    readdir cfg fuel fs st d.name = .panic ∧ stat cfg fuel fs st d.name = .panic := by
  have key : ∀ (m n i : Nat) (acc ds : List Dirent), Slots cfg fs.bootSector (slotsFrom m i data) ds false → m < n → 32 * (i + m) = data.length →
      clusterToDirentLoop cfg fs.bootSector data n i acc = .panic := by
    intro m
    induction m with
    | zero =>
      intro n i acc ds _ hn hi
      match n, hn with
      | n + 1, _ =>
        unfold clusterToDirentLoop goSlice direntSize
        rw [if_neg (by omega)]
        rfl
    | succ m ih =>
      intro n i acc ds hS hn hi
      match n, hn with
      | n + 1, hn =>
        rw [slotsFrom_succ] at hS
        unfold clusterToDirentLoop
        cases hS with
        | entry h1 h2 h3 h4 =>
          rw [goSlice_slot h1]
          show (match cfg.parse _ with | .panic => _ | .timeout => _ | .ret raw => _) = _
          rw [h2]
          simp only
          rw [h3]
          simp only
          exact ih n (i + 1) _ _ h4 (by omega) (by omega)
  have e : slotsOf k data = slotsFrom k 0 data := by unfold slotsOf slotsFrom; simp
  rw [e] at hs
  have hcl : clusterToDirentSlice cfg fs.bootSector data = .panic := key k _ 0 [] ds hs hk (by omega)
  have hdir : readDirFromDirent cfg fuel fs st d = .panic := by
    unfold readDirFromDirent
    rw [if_neg (by simp [hd])]
    match fuel, hf with
    | fuel + 1, _ =>
      unfold readDirLoop readClusterOfDirent getClusterInChain
      simp only
      rw [hr]
      simp only
      rw [hcl]
      rfl
  unfold readdir stat
  rw [resolve_only hl h hp, hdir]
  exact ⟨rfl, rfl⟩

/-! The example volume with directories: cluster 2 of the volume holds A, a deleted file and the end mark, cluster 4 is full of entries, cluster 3
is full and is followed by cluster 5, which is like cluster 2. -/

/-- The bytes of an entry in use, one of a deleted file, and an end mark. -/
def exSlot : Bytes := 65 :: List.replicate 10 32 ++ [32, 0, 150, 0, 96, 252, 80, 252, 80, 0, 0, 1, 96, 252, 80, 9, 0, 88, 2, 0, 0]
/-- deleted -/
def exDeleted : Bytes := 0xE5 :: exSlot.drop 1
/-- A cluster with two entries. -/
def exCluster : Bytes := exSlot ++ exDeleted ++ List.replicate 448 0
/-- A cluster full of entries. -/
def exFull : Bytes := (List.replicate 16 exSlot).flatten
/-- See above. -/
def exDirFS : FS ExState :=
  { exFS with readAt := fun _ off _ => (if off = (15 + 4) * 512 ∨ off = (15 + 3) * 512 then exFull else exCluster, none) }
/-- The directories of the example volume. -/
def exSub : Dirent := { Dirent.zero with name := str! "SUB", firstCluster := 2, mode := modeDir }
/-- full -/
def exSubFull : Dirent := { Dirent.zero with name := str! "FULL", firstCluster := 4, mode := modeDir }
/-- two clusters -/
def exSubTwo : Dirent := { Dirent.zero with name := str! "TWO", firstCluster := 3, mode := modeDir }
/-- The volume's tables. -/
def exDirState : ExState := ⟨[0, 0, 0xFFF, 5, 0xFFF, 0xFFF], [exSub, exSubFull, exSubTwo], []⟩
theorem exPlain (n : Str) (h : n = str! "SUB" ∨ n = str! "FULL" ∨ n = str! "TWO") : Path.Plain n := by
  rcases h with rfl | rfl | rfl <;> exact ⟨by decide, by decide, by decide, by decide, by decide⟩
theorem exOnlySub : Only exDirState.root exSub := ⟨[], [exSubFull, exSubTwo], rfl, by decide, by decide⟩
theorem exOnlyFull : Only exDirState.root exSubFull := ⟨[exSub], [exSubTwo], rfl, by decide, by decide⟩
theorem exOnlyTwo : Only exDirState.root exSubTwo := ⟨[exSub, exSubFull], [], rfl, by decide, by decide⟩

/-- Evaluates `Slots`. -/
def slotsEval (cfg : Cfg) (bs : BootSector) : List Bytes → Option (List Dirent × Bool)
  | [] => some ([], false)
  | s :: rest =>
    if s.length = 32 then
      match cfg.parse s with
      | .ret raw =>
        match newDirentFromRawIn cfg bs raw with
        | .ret (.ok d) => (slotsEval cfg bs rest).map fun p => (d :: p.1, p.2)
        | .ret (.error .notFound) => some ([], true)
        | _ => none
      | _ => none
    else none

theorem slots_eval (cfg : Cfg) (bs : BootSector) : ∀ (ss : List Bytes) (p : List Dirent × Bool), slotsEval cfg bs ss = some p → Slots cfg bs ss p.1 p.2 := by
  intro ss
  induction ss with
  | nil => intro p h; cases h; exact .full
  | cons s ss ih =>
    intro p h
    unfold slotsEval at h
    split at h
    · rename_i hl
      split at h
      · rename_i raw hr
        split at h
        · rename_i d hd
          rw [Option.map_eq_some_iff] at h
          obtain ⟨q, h1, rfl⟩ := h
          exact .entry hl hr hd (ih q h1)
        · rename_i hd
          cases h
          exact .mark hl hr hd
        · cases h
      · cases h
    · cases h

theorem slots_eval' {cfg : Cfg} {bs : BootSector} {ss : List Bytes} {ds : List Dirent} {ended : Bool} (h : slotsEval cfg bs ss = some (ds, ended)) :
    Slots cfg bs ss ds ended := slots_eval cfg bs ss (ds, ended) h

/-- The entries of the example cluster. -/
def exEntries : List Dirent := ((slotsEval (repaired toyCalendar) exampleBoot (slotsOf 16 exCluster)).getD ([], false)).1
/-- Those of the full cluster. -/
def exFullEntries : List Dirent := ((slotsEval (repaired toyCalendar) exampleBoot (slotsOf 16 exFull)).getD ([], false)).1

theorem exSlots : Slots (repaired toyCalendar) exampleBoot (slotsOf 16 exCluster) exEntries true := by
  exact slots_eval' (by decide +kernel)
theorem exFullSlots : Slots (repaired toyCalendar) exampleBoot (slotsOf 16 exFull) exFullEntries false := by
  exact slots_eval' (by decide +kernel)

theorem exSubHolds : DirHolds (repaired toyCalendar) exDirFS exDirState exSub exEntries true :=
  ⟨by decide, [2], .last (by decide) (by decide) (show _ = Except.ok (0xFFF : UInt32) by decide) (by decide),
    .mark (data := exCluster) (by decide +kernel) exSlots⟩
theorem exFullHolds : DirHolds (repaired toyCalendar) exDirFS exDirState exSubFull (exFullEntries ++ []) false :=
  ⟨by decide, [4], .last (by decide) (by decide) (show _ = Except.ok (0xFFF : UInt32) by decide) (by decide),
    .more (data := exFull) (by decide +kernel) exFullSlots .full⟩
theorem exTwoHolds : DirHolds (repaired toyCalendar) exDirFS exDirState exSubTwo (exFullEntries ++ exEntries) true :=
  ⟨by decide, [3, 5], .link (by decide) (by decide) (show _ = Except.ok (5 : UInt32) by decide)
    (.last (by decide) (by decide) (show _ = Except.ok (0xFFF : UInt32) by decide) (by decide)),
    .more (data := exFull) (by decide +kernel) exFullSlots (.mark (data := exCluster) (by decide +kernel) exSlots)⟩

/-- The cluster lists two entries, the file A and the deleted file, whose first character is the byte 150. -/
example : exEntries.map (fun d => (d.name, d.isDeleted, d.size, d.firstCluster)) = [([65], false, 600, 9), ([150], true, 600, 9)] := by decide +kernel
/-- Over two clusters, eighteen. -/
example : (match readdir (repaired toyCalendar) 3 exDirFS exDirState (str! "TWO") with
    | .ret (.ok ds) => ds.length == 18 && decide (ds = exFullEntries ++ exEntries)
    | _ => false) = true := by decide +kernel
example : readdir (repaired toyCalendar) 3 exDirFS exDirState (str! "FULL") = .ret (.error .invalidArgument) := by decide +kernel

/-- C132 fails as shipped, for the first directory. -/
theorem C132_refuted : ¬ C132_statement := by
  intro h
  obtain ⟨fuel, ds', h1, _⟩ := h toyCalendar exDirFS exDirState exDirState.root exSub exEntries true rfl exOnlySub (exPlain _ (.inl rfl)) exSubHolds
  have h2 := readdir_dir (es := exDirState.root) rfl exOnlySub (exPlain _ (.inl rfl)) h1
  unfold readDirFromDirent at h2
  rw [if_neg (by decide)] at h2
  cases fuel with
  | zero => cases h2
  | succ fuel =>
    unfold readDirLoop at h2
    have hr : readClusterOfDirent exDirFS exDirState exSub 0 = .ok exCluster := by decide +kernel
    rw [hr] at h2
    simp only at h2
    rw [C55_directory_cluster_panics _ _ (by decide)] at h2
    cases h2

/-- C132 fails even if decoding is repaired: full directories are refused. -/
theorem C132_repaired_refuted : ¬ C132_statement_for repaired := by
  intro h
  obtain ⟨fuel, ds', h1, _⟩ := h toyCalendar exDirFS exDirState exDirState.root exSubFull _ false rfl exOnlyFull (exPlain _ (.inr (.inl rfl))) exFullHolds
  have h2 := readdir_dir (es := exDirState.root) rfl exOnlyFull (exPlain _ (.inr (.inl rfl))) h1
  obtain ⟨n, hn⟩ := readDir_dir exFullHolds
  have h3 := readDir_mono' fuel (n + 1) h2
  rw [hn _ (by omega)] at h3
  cases h3

/-- A volume with clusters of two sectors of which only the first is read. -/
example : (match readdir (repaired toyCalendar) 3 { exDirFS with bootSector := { exampleBoot with direntsPerCluster := 32, bytesPerCluster := 1024 } }
    exDirState (str! "FULL") with | .panic => true | _ => false) = true := by decide +kernel

end Disko.Fat
