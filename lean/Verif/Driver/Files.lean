import Verif.Driver.Isolation
import Verif.Driver.Props12
import Verif.Stream.InPlace
import Verif.Stream.Props10
/-! Open files and the reference machine of C148 (for C153). -/
namespace Disko.Driver
open Disko Disko.BlockCache Spec
open Disko.Stream.Reference (Machine shown reading)

variable {σ H : Type}

namespace Spec

/-- The call of the machine that a method of the file stands for (those on the object itself, such as Chmod, are left out). -/
def asCall : FileOp → Option Stream.Spec.Call
  | .read n => some (.read (List.replicate n 0))
  | .readAt n off => some (.readAt (List.replicate n 0) off)
  | .write data => some (.write data)
  | .writeAt data off => some (.writeAt data off)
  | .seek off whence => some (.seek off whence)
  | .truncate n => some (.truncate n)
  | .sync => some .sync
  | _ => none

/-- What the program sees of an answer. -/
def told : Stream.Spec.Answer → Answer
  | .read r => .read r.n r.buf r.err
  | .moved n e => .count n e
  | .wrote n e => .count n e
  | .did e => .count 0 e
  | .copied _ n e => .count n e

/-- A write of `len` bytes at `off` whose numbers are small enough: the buffer and the object fit in memory together, and so does the object after the
write, or else the end of the write is not even an int64. -/
def PutFits (m : Machine) (len : Nat) (off : Int) : Prop :=
  off ≤ maxInt ∧ m.object.length + len + m.block ≤ maxInt ∧ (off + len + m.block ≤ maxInt ∨ maxInt < off + len)

/-- The numbers in the call are small enough, and its offset is not negative. -/
def CallFits (m : Machine) : Stream.Spec.Call → Prop
  | .read buf => m.object.length + buf.length ≤ maxInt
  | .readAt buf off => m.object.length + buf.length ≤ maxInt ∧ 0 ≤ off
  | .seek off _ => -(2 ^ 63) ≤ off ∧ off < 2 ^ 63
  | .sync => True
  | .truncate n => n + m.block ≤ maxInt
  | .write buf => PutFits m buf.length (if m.appends then m.size else m.pos : Nat)
  | .writeAt buf off => PutFits m buf.length off ∧ 0 ≤ off
  | _ => False

/-- The machine answers the methods one after the other, each of which fits and is as `ok` says. -/
inductive Plays (ok : Machine → Stream.Spec.Call → Prop) : Machine → List FileOp → List Answer → Machine → Prop where
  | nil (m : Machine) : Plays ok m [] [] m
  | cons {m m' m'' : Machine} {op : FileOp} {c : Stream.Spec.Call} {a : Stream.Spec.Answer} {ops : List FileOp} {as : List Answer}
      (hop : asCall op = some c) (hfit : CallFits m c) (hok : ok m c) (hc : m.call c = some (m', a)) (rest : Plays ok m' ops as m'') :
      Plays ok m (op :: ops) (told a :: as) m''

end Spec

/-! ### One call -/

theorem onStream_eq {α : Type} (m : Backend σ → Stream.Stm σ → Outcome (Stream.Stm σ × α)) (d : Drv σ H) (f : File H) {h : H} (hh : f.objectHandle.inner = some h) (s : σ)
    {x : Stream.Stm σ} {a : α} (e : m (backendOf d.impl h) (f.streamIn s) = .ret (x, a)) : f.onStream d m s = .ret (x.st.s, .ok (f.after x, a)) := by
  unfold File.onStream
  rcases hi : f.objectHandle with ⟨i, ap⟩
  rw [hi] at hh
  simp only at hh
  subst hh
  show (match m (backendOf d.impl h) (f.streamIn s) with
        | .panic => Outcome.panic
        | .timeout => Outcome.timeout
        | .ret (x, a) => Outcome.ret (x.st.s, Except.ok (f.after x, a))) = _
  rw [e]

theorem stepFile_call (d : Drv σ H) (f : File H) {h : H} (hh : f.objectHandle.inner = some h) (s : σ) {op : FileOp} {c : Stream.Spec.Call} (hop : asCall op = some c)
    {x : Stream.Stm σ} {a : Stream.Spec.Answer} (e : Stream.Spec.answerCall (backendOf d.impl h) (f.streamIn s) c = .ret (x, a)) :
    stepFile d f op s = .ret (x.st.s, .ok ((d.workingDirPath, f.after x), told a)) := by
  cases op <;> cases hop <;> simp only [Stream.Spec.answerCall] at e
  case read n =>
    rcases e1 : Stream.read (backendOf d.impl h) (f.streamIn s) (List.replicate n 0) with ⟨x1, r⟩ | _ | _ <;> rw [e1] at e <;> cases e
    simp only [stepFile, ask, M.either, onStream_eq (fun b x => Stream.read b x (List.replicate n 0)) d f hh s e1]; rfl
  case readAt n off =>
    rcases e1 : Stream.readAt (backendOf d.impl h) (f.streamIn s) (List.replicate n 0) off with ⟨x1, r⟩ | _ | _ <;> rw [e1] at e <;> cases e
    simp only [stepFile, ask, M.either, onStream_eq (fun b x => Stream.readAt b x (List.replicate n 0) off) d f hh s e1]; rfl
  case write data =>
    rcases e1 : Stream.write (backendOf d.impl h) (f.streamIn s) data with ⟨x1, r⟩ | _ | _ <;> rw [e1] at e <;> cases e
    simp only [stepFile, ask, M.either, onStream_eq (fun b x => Stream.write b x data) d f hh s e1]; rfl
  case writeAt data off =>
    rcases e1 : Stream.writeAt (backendOf d.impl h) (f.streamIn s) data off with ⟨x1, r⟩ | _ | _ <;> rw [e1] at e <;> cases e
    simp only [stepFile, ask, M.either, onStream_eq (fun b x => Stream.writeAt b x data off) d f hh s e1]; rfl
  case seek off wh =>
    cases e
    simp only [stepFile, ask, M.either, onStream_eq (fun _ x => .ret (Stream.seek x off wh)) d f hh s (x := (Stream.seek (f.streamIn s) off wh).1) (a := (Stream.seek (f.streamIn s) off wh).2) rfl]; rfl
  case truncate n =>
    rcases e1 : Stream.truncate (backendOf d.impl h) (f.streamIn s) n with ⟨x1, r⟩ | _ | _ <;> rw [e1] at e <;> cases e
    simp only [stepFile, ask, M.either, onStream_eq (fun b x => Stream.truncate b x n) d f hh s e1]; rfl
  case sync =>
    rcases e1 : Stream.sync (backendOf d.impl h) (f.streamIn s) with ⟨x1, r⟩ | _ | _ <;> rw [e1] at e <;> cases e
    simp only [stepFile, ask, M.either, onStream_eq (fun b x => Stream.sync b x) d f hh s e1]; rfl

/-- The stream of the file after a call is the stream after the call. -/
theorem streamIn_after (f : File H) (x : Stream.Stm σ) (hfl : x.flags = f.ioFlags) : (f.after x).streamIn x.st.s = x := by
  unfold File.after File.streamIn
  simp only [← hfl]

/-- Fitting the machine is fitting the stream. -/
theorem callFits {bpb : Nat} {view : σ → Bytes} {x : Stream.Stm σ} (h : Stream.Inv bpb view x) (b : Backend σ) {c : Stream.Spec.Call} (hf : CallFits (shown view x) c) : Stream.Spec.Fits b x c := by
  have hl : (shown view x).object.length = Stream.Spec.capacity x := by
    show (BlockCache.Spec.contents view x.st).length = _
    rw [BlockCache.length_contents]; rfl
  have hb : (shown view x).block = x.st.c.bpb := rfl
  cases c with
  | read buf => rw [CallFits, hl] at hf; exact hf
  | readAt buf off => rw [CallFits, hl] at hf; exact hf
  | seek off wh => exact hf
  | sync => trivial
  | truncate n => exact hf
  | write buf =>
    have hwe : (((if (shown view x).appends then (shown view x).size else (shown view x).pos : Nat)) : Int) = Stream.Spec.writeOffset x := by
      unfold Stream.Spec.writeOffset
      show (((if Flags.append x.flags = true then x.size.toNat else x.position.toNat : Nat)) : Int) = _
      have := h.size_nn
      have := h.pos_nn
      split <;> omega
    rw [CallFits, PutFits, hl, hb, hwe] at hf
    exact hf
  | writeAt buf off => rw [CallFits, PutFits, hl, hb] at hf; exact hf
  | writeTo k w fuel => exact absurd hf id
  | readFrom src r bs fuel => exact absurd hf id

/-! ### Histories -/

theorem step_of_answer {b : Backend σ} {x x' : Stream.Stm σ} {c : Stream.Spec.Call} {a : Stream.Spec.Answer} (hc : ∀ W (k : Compression.Sink W) w n, c ≠ .writeTo k w n)
    (e : Stream.Spec.answerCall b x c = .ret (x', a)) : Stream.Spec.stepCall b x c = .ret x' := by
  cases c with
  | read buf => simp only [Stream.Spec.answerCall, Stream.Spec.stepCall] at e ⊢; rcases h : Stream.read b x buf with ⟨x1, r⟩ | _ | _ <;> rw [h] at e <;> cases e; rfl
  | readAt buf off => simp only [Stream.Spec.answerCall, Stream.Spec.stepCall] at e ⊢; rcases h : Stream.readAt b x buf off with ⟨x1, r⟩ | _ | _ <;> rw [h] at e <;> cases e; rfl
  | seek off wh => cases e; rfl
  | sync => simp only [Stream.Spec.answerCall, Stream.Spec.stepCall] at e ⊢; rcases h : Stream.sync b x with ⟨x1, r⟩ | _ | _ <;> rw [h] at e <;> cases e; rfl
  | truncate n => simp only [Stream.Spec.answerCall, Stream.Spec.stepCall] at e ⊢; rcases h : Stream.truncate b x n with ⟨x1, r⟩ | _ | _ <;> rw [h] at e <;> cases e; rfl
  | write buf => simp only [Stream.Spec.answerCall, Stream.Spec.stepCall] at e ⊢; rcases h : Stream.write b x buf with ⟨x1, r⟩ | _ | _ <;> rw [h] at e <;> cases e; rfl
  | writeAt buf off => simp only [Stream.Spec.answerCall, Stream.Spec.stepCall] at e ⊢; rcases h : Stream.writeAt b x buf off with ⟨x1, r⟩ | _ | _ <;> rw [h] at e <;> cases e; rfl
  | writeTo k w n => exact absurd rfl (hc _ k w n)
  | readFrom src r bs n => simp only [Stream.Spec.answerCall, Stream.Spec.stepCall] at e ⊢; rcases h : Stream.readFrom b src bs n x r with ⟨x1, r⟩ | _ | _ <;> rw [h] at e <;> cases e; rfl

/-- If each call does what the machine does, so does a history; `I` is kept (it may depend on the calls still to come). -/
theorem run_plays (d : Drv σ H) {h : H} {view : σ → Bytes} {ok : Machine → Stream.Spec.Call → Prop} {I : List Stream.Spec.Call → Stream.Stm σ → Prop}
    (hstep : ∀ x c cs, I (c :: cs) x → CallFits (shown view x) c → ok (shown view x) c → ∃ x' a, Stream.Spec.answerCall (backendOf d.impl h) x c = .ret (x', a) ∧ I cs x' ∧ x'.flags = x.flags ∧
      (shown view x).call c = some (shown view x', a)) (i : Nat) {m m' : Machine} {ops : List FileOp} {as : List Answer} (hp : Plays ok m ops as m') :
    ∀ (w : World H) (f : File H) (s : σ), w.files[i]? = some f → f.objectHandle.inner = some h → I (ops.filterMap asCall) (f.streamIn s) → shown view (f.streamIn s) = m →
      ∃ s' f', (∀ fuel, runOps d fuel w (ops.map (.file i)) s = .ret (s', .ok (⟨w.wd, w.files.set i f'⟩, as))) ∧ f'.objectHandle = f.objectHandle ∧ I [] (f'.streamIn s') ∧ shown view (f'.streamIn s') = m' := by
  induction hp with
  | nil m =>
    intro w f s hf hh hi hs
    refine ⟨s, f, fun fuel => ?_, rfl, hi, hs⟩
    rw [List.map_nil, runOps]
    have : w.files.set i f = w.files := by
      apply List.ext_getElem?
      intro j
      rw [List.getElem?_set]
      split
      · next h => subst h; rw [hf]; split <;> first | rfl | (next h => rw [List.getElem?_eq_none (by omega)] at hf; cases hf)
      · rfl
    rw [this]; rfl
  | @cons m m1 m2 op c a ops as hop hfit hok hc rest ih =>
    intro w f s hf hh hi hs
    subst hs
    rw [List.filterMap_cons_some hop] at hi
    obtain ⟨x', a', e1, i1, fl1, c1⟩ := hstep _ _ _ hi hfit hok
    rw [c1] at hc
    cases hc
    have hst := streamIn_after f x' fl1
    have hlt : i < w.files.length := by
      rcases Nat.lt_or_ge i w.files.length with h | h
      · exact h
      · rw [List.getElem?_eq_none h] at hf; cases hf
    obtain ⟨s', f', r1, r2, r3, r4⟩ := ih ⟨w.wd, w.files.set i (f.after x')⟩ (f.after x') x'.st.s (by simp only [List.getElem?_set_self hlt]) hh (by rw [hst]; exact i1) (by rw [hst])
    refine ⟨s', f', fun fuel => ?_, r2, r3, r4⟩
    rw [List.map_cons, runOps]
    have e2 : stepOp d fuel w (.file i op) s = .ret (x'.st.s, .ok (⟨w.wd, w.files.set i (f.after x')⟩, told a)) := by
      simp only [stepOp, hf]
      rw [andThen_ok (stepFile_call { d with workingDirPath := w.wd } f hh s hop e1)]
      rfl
    rw [andThen_ok e2]
    simp only
    rw [andThen_ok (r1 fuel), List.set_set]
    rfl

/-- A file that has just been opened. -/
theorem sizes_of {impl : Impl σ H} {s : σ} {h : H} {bpb total : Nat} {view : σ → Bytes} (hs : StatFits impl s h bpb total view) : SizesFit (impl.stat s h) bpb total :=
  ⟨hs.bpb_pos, hs.bpb_le, hs.blockSize, hs.numBlocks, hs.size_nn, hs.size_le, by have := hs.fits; omega⟩

theorem new_of {impl : Impl σ H} {s : σ} {h : H} {bpb total : Nat} {view : σ → Bytes} (hs : StatFits impl s h bpb total view) :
    BlockCache.new bpb total = .ret ⟨bpb, total, List.replicate (BlockCache.bitmapLen total) false, List.replicate (BlockCache.bitmapLen total) false, List.replicate (total * bpb) 0⟩ := by
  have hcap : total * bpb ≤ maxInt := by have := hs.fits; omega
  have ht : total ≤ maxInt := Nat.le_trans (Nat.le_mul_of_pos_right _ hs.bpb_pos) hcap
  unfold BlockCache.new
  rw [Nat.mul_comm bpb total, u64_of_lt (by unfold maxInt at hcap; omega), if_pos ⟨ht, hcap⟩]

theorem fresh_shown {impl : Impl σ H} {s : σ} {h : H} {bpb total : Nat} {view : σ → Bytes} (L : BlockCache.Spec.Lawful (reading (backendOf impl h)) bpb view)
    (hs : StatFits impl s h bpb total view) (p : Str) {flags : Flags.IOFlags} (hnt : Flags.truncate flags = false) :
    Stream.Inv bpb view ((freshFile (impl.stat s h) bpb total h p flags).streamIn s) ∧ (freshFile (impl.stat s h) bpb total h p flags).cache.Clean ∧
    Stream.Reference.open_ ((view s).take (total * bpb)) bpb (impl.stat s h).size flags = (some (shown view ((freshFile (impl.stat s h) bpb total h p flags).streamIn s)), none) := by
  have hcap : total * bpb ≤ maxInt := by have := hs.fits; omega
  have SS : Stream.Spec.StreamSetup (reading (backendOf impl h)) bpb total view s := ⟨⟨L, hs.bpb_pos, hcap, hs.store⟩, hs.bpb_le⟩
  have hn := new_of hs
  have ha : BlockCache.Spec.After (reading (backendOf impl h)) bpb total s [] ⟨_, s⟩ [] := ⟨_, hn, by simp, rfl⟩
  obtain ⟨_, _, hc⟩ := BlockCache.after_spec SS.cache ha
  have hc' : BlockCache.Spec.contents view _ = (view s).take (total * bpb) := hc
  have hsz := (fits_new (sizes_of hs)).2
  have hx : Stream.new (reading (backendOf impl h)) (impl.stat s h).size ⟨⟨bpb, total, List.replicate (BlockCache.bitmapLen total) false, List.replicate (BlockCache.bitmapLen total) false, List.replicate (total * bpb) 0⟩, s⟩ flags =
      .ret (some ((freshFile (impl.stat s h) bpb total h p flags).streamIn s), none) := by
    unfold Stream.new
    simp only
    rw [hsz, if_neg (by have := hs.size_nn; have := hs.size_le; omega), hnt]
    rfl
  refine ⟨Stream.new_inv SS ha hx, (Stream.new_clean hn).1, ?_⟩
  unfold Stream.Reference.open_
  have hl : ((view s).take (total * bpb)).length = total * bpb := by rw [List.length_take]; have := hs.store; omega
  rw [hl, if_neg (by have := hs.size_nn; have := hs.size_le; omega), hnt]
  simp only [Bool.false_eq_true, if_false]
  rw [← hc']
  rfl

end Disko.Driver
