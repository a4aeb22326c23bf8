import Verif.Model.Driver
import Verif.Props.WriterLayout
import Verif.Lemmas.Tables

/-
C58: pseudo-data, from the writer (rabbit/tensorwriter.py:182-193, 1656-1679, 2062, 2083) through the selection of the
reader (rabbit/inputdata.py:40-71) to the data sets of the fit script.
-/

namespace Verif.Driver

open Verif.Writer M

variable {α : Type}

/-! ## the selection -/

/-- C58.  A request with an unknown name is refused. -/
theorem c58_unknown (req : List String) (file : Pseudo α) (h : ∃ n ∈ req, n ∉ file.names) :
    readPseudo (some req) file = .error .value := by
  obtain ⟨n, hn, hnot⟩ := h
  cases req with
  | nil => simp at hn
  | cons r rs =>
    unfold readPseudo
    dsimp only
    rw [if_pos]
    rw [Bool.not_eq_true', List.all_eq_false]
    exact ⟨n, hn, by simpa using hnot⟩

theorem filterIdx (names : List String) (p : String → Bool) :
    ((List.range names.length).filter fun i => p (names.getD i "")).map (fun i => names.getD i "") = names.filter p := by
  conv_rhs => rw [show names = (List.range names.length).map (fun i => names.getD i "") by
    apply List.ext_getElem
    · simp
    · intro i h1 h2
      simp [List.getD_eq_getElem?_getD, List.getElem?_eq_getElem h1]]
  rw [List.filter_map]
  rfl

/-- C58.  A request with known names (at least one) succeeds: exactly the requested sets, in the order of the file, each set
of values beside its own name.  An empty request returns all. -/
theorem c58_select (req : List String) (file : Pseudo α) (hc : file.ncols = file.names.length) (h : ∀ n ∈ req, n ∈ file.names) :
    ∃ p, readPseudo (some req) file = .ok (some p) ∧
      p.names = (if req = [] then file.names else file.names.filter (· ∈ req)) ∧ p.ncols = p.names.length ∧
      ∀ (k : Nat) n, p.names[k]? = some n → ∃ i, file.names[i]? = some n ∧ ∀ b, p.obs b k = file.obs b i := by
  cases req with
  | nil => exact ⟨file, rfl, rfl, hc, fun k n hk => ⟨k, hk, fun _ => rfl⟩⟩
  | cons r rs =>
    unfold readPseudo
    dsimp only
    have hall : (r :: rs).all file.names.contains = true := by
      rw [List.all_eq_true]
      intro n hn
      simpa using h n hn
    have hidx := filterIdx file.names (fun s => (r :: rs).contains s)
    set idx := (List.range file.names.length).filter fun i => (r :: rs).contains (file.names.getD i "") with hidxdef
    have hne : idx ≠ [] := by
      intro he
      rw [he] at hidx
      have hr := h r List.mem_cons_self
      have : r ∈ file.names.filter (fun s => (r :: rs).contains s) := List.mem_filter.2 ⟨hr, by simp⟩
      rw [← hidx] at this
      simp at this
    rw [hall, if_neg (by simp), if_neg (by simpa using hne)]
    refine ⟨_, rfl, ?_, ?_, ?_⟩
    · rw [if_neg (by simp)]
      show idx.map _ = _
      rw [hidx]
      congr 1
      funext s
      simp
    · simp
    · intro k n hk
      dsimp only at hk
      rw [List.getElem?_map] at hk
      cases hi : idx[k]? with
      | none => rw [hi] at hk; cases hk
      | some i =>
        rw [hi] at hk
        have hk := Option.some.inj hk
        have hlt : i < file.names.length := by
          have := List.mem_of_getElem? hi
          rw [hidxdef] at this
          exact List.mem_range.1 (List.mem_filter.1 this).1
        refine ⟨i, ?_, fun b => ?_⟩
        · rw [← hk]
          dsimp only
          rw [List.getD_eq_getElem?_getD, List.getElem?_eq_getElem hlt]
          rfl
        · dsimp only
          rw [List.getD_eq_getElem?_getD, hi]
          rfl

/-- C58.  The data sets of the fit script, without stored variances: one per name, in the same order, each with the values of its
name. -/
theorem c58_datasets (p : Pseudo α) (hc : p.ncols = p.names.length) (hv : p.var = none) :
    (datasets p).length = p.names.length ∧ ∀ (j : Nat), j < p.names.length → (datasets p)[j]? = some (fun b => p.obs b j, none) := by
  unfold datasets
  rw [hv]
  dsimp only
  refine ⟨by simp [hc], fun j hj => ?_⟩
  rw [List.getElem?_map, List.getElem?_range (by omega)]
  rfl

-- two of three sets, in the order of the file
example : ((readPseudo (some ["c", "a"]) (⟨["a", "b", "c"], 3, fun b i => 10 * b + i, none⟩ : Pseudo Nat)).toOption.join.map
    fun p => (p.names, (datasets p).map fun d => [d.1 0, d.1 1])) = some (["a", "c"], [[0, 10], [2, 12]]) := by decide

/-- C58 does not hold for stored variances: they are not selected, so the set `b` is fitted with the variances of `a`. -/
theorem c58_variances_violated :
    ((readPseudo (some ["b"]) (⟨["a", "b"], 2, fun _ i => 10 * (i + 1), some (2, fun _ i => 7 * (i + 1))⟩ : Pseudo Nat)).toOption.join.map
      fun p => (p.names, (datasets p).map fun d => (d.1 0, d.2.map (· 0)))) = some (["b"], [(20, some 7)]) := by
  decide

/-! ## through the writer -/

section writer

variable {V : Type} [Field V] [LinearOrder V]

/-- the pseudo-data of a written file -/
def ofTensor (t : Writer.Tensor V) : Pseudo (FVal V) := ⟨t.pseudoNames, t.pseudoNames.length, t.pseudo, none⟩

omit [LinearOrder V] in
/-- outcome of `add_pseudodata` -/
theorem addPseudo_at (cfg : Cfg V) (h : HIn V) (name : Option String) (chan : String) (s : State V) :
    (∀ c n v, Spec.at2 s.pseudo c n = some v → Spec.at2 (addPseudo cfg h name chan s).1.pseudo c n = some v) ∧
    (∀ n, n ∈ s.pseudoNames → n ∈ (addPseudo cfg h name chan s).1.pseudoNames) ∧
    ((addPseudo cfg h name chan s).2 = .ok () →
      let n := name.getD s!"pseudodata_{s.pseudoNames.length}"
      Spec.at2 s.pseudo chan n = none ∧ Spec.at2 (addPseudo cfg h name chan s).1.pseudo chan n = some (h.flatVals false) ∧
        n ∈ (addPseudo cfg h name chan s).1.pseudoNames) := by
  unfold addPseudo
  rw [read_bind]
  cases hc : checkHist cfg s.channels h chan with
  | error e => exact ⟨fun _ _ _ h => h, fun _ h => h, fun h => nomatch h⟩
  | ok c =>
    rw [lift_ok_bind]
    dsimp only
    simp only [modify_bind, read_bind]
    set n := name.getD s!"pseudodata_{s.pseudoNames.length}" with hn
    set p0 := (if s.pseudo.has chan then s.pseudo else s.pseudo.set chan []) with hp0
    have hat0 : ∀ c m, Spec.at2 p0 c m = Spec.at2 s.pseudo c m := by
      intro c m
      rw [hp0]
      split
      · rfl
      · rename_i hh
        unfold Spec.at2
        rw [Dict.get?_set]
        split
        · rename_i e
          subst e
          have : s.pseudo.get? chan = none := by
            unfold Dict.has at hh
            simpa using hh
          rw [this]
          rfl
        · rfl
    have hmem : ∀ m, m ∈ s.pseudoNames → m ∈ setAdd s.pseudoNames n := fun m hm => by rw [mem_setAdd]; exact .inl hm
    cases hg : Dict.get p0 chan with
    | error e =>
      rw [lift_error_bind]
      exact ⟨fun c m v hv => by show Spec.at2 p0 c m = _; rw [hat0]; exact hv, hmem, fun h => nomatch h⟩
    | ok pc =>
      rw [lift_ok_bind, raiseIf_bind]
      cases hh : pc.has n with
      | true =>
        simp only [if_true]
        exact ⟨fun c m v hv => by show Spec.at2 p0 c m = _; rw [hat0]; exact hv, hmem, fun h => nomatch h⟩
      | false =>
        simp only [Bool.false_eq_true, if_false]
        have hg' : Dict.get? p0 chan = some pc := by
          unfold Dict.get at hg
          cases hgg : Dict.get? p0 chan with
          | none => rw [hgg] at hg; exact nomatch hg
          | some x => rw [hgg] at hg; cases hg; rfl
        have hfresh : Spec.at2 p0 chan n = none := by
          unfold Spec.at2
          rw [hg']
          unfold Dict.has at hh
          simpa using hh
        cases hu : upd2 p0 chan n (h.flatVals false) with
        | error e =>
          rw [lift_error_bind]
          exact ⟨fun c m v hv => by show Spec.at2 p0 c m = _; rw [hat0]; exact hv, hmem, fun h => nomatch h⟩
        | ok p =>
          rw [lift_ok_bind, modify_def]
          refine ⟨fun c m v hv => ?_, hmem, fun _ => ⟨by rw [← hat0]; exact hfresh, ?_, ?_⟩⟩
          · show Spec.at2 p c m = some v
            rw [upd2_at hu, if_neg, hat0]
            · exact hv
            · rintro ⟨rfl, rfl⟩
              rw [hat0, hv] at hfresh
              cases hfresh
          · show Spec.at2 p chan n = _
            rw [upd2_at hu, if_pos ⟨rfl, rfl⟩]
          · show n ∈ setAdd s.pseudoNames n
            rw [mem_setAdd]
            exact .inr rfl

theorem pseudo_step (cfg : Cfg V) (op : Op V) (s : State V) :
    (∀ c n v, Spec.at2 s.pseudo c n = some v → Spec.at2 (step cfg op s).1.pseudo c n = some v) ∧
    (∀ n, n ∈ s.pseudoNames → n ∈ (step cfg op s).1.pseudoNames) := by
  have key : ∀ {m : M V Unit}, Keeps (fun s : State V => (s.pseudo, s.pseudoNames)) m →
      (∀ c n v, Spec.at2 s.pseudo c n = some v → Spec.at2 (m s).1.pseudo c n = some v) ∧
      (∀ n, n ∈ s.pseudoNames → n ∈ (m s).1.pseudoNames) := fun hm => by
    have := hm.run s
    simp only [Prod.mk.injEq] at this
    rw [this.1, this.2]
    exact ⟨fun _ _ _ h => h, fun _ h => h⟩
  have kc : ∀ {m : M V Unit}, Keeps core m → Keeps (fun s : State V => (s.pseudo, s.pseudoNames)) m := fun hm =>
    keeps_of_core hm _ fun s t e => by
      have := congrArg (fun c : Core V => (c.pseudo, c.pseudoNames)) e
      exact this
  cases op with
  | dataCov c => exact key ⟨fun _ => rfl⟩
  | pseudo h name c => exact ⟨(addPseudo_at cfg h name c s).1, (addPseudo_at cfg h name c s).2.1⟩
  | data h c vars => exact key (keeps_addData _ (fun _ _ _ => rfl) ..)
  | process h name c sig vars => exact key (keeps_addProcess _ (fun _ _ _ _ _ _ _ => rfl) ..)
  | syst x name proc c k m sy t d o => exact key (kc (keeps_addSystematic ..))
  | normSyst name procs c u t sy o => exact key (kc (keeps_addNormSystematic ..))
  | write it => exact key (Keeps.bind (keeps_write _ (fun _ _ => rfl) ..) fun _ => Keeps.pure _)
  | channel axes nm m f => exact key (keeps_addChannel _ (fun _ _ _ _ _ _ _ => rfl) ..)

/-- C58.  A histogram accepted by `add_pseudodata` stays stored under its channel and its name, unchanged by every later
call. -/
theorem c58_stored (cfg : Cfg V) (before after : List (Op V)) (h : HIn V) (name : Option String) (chan : String)
    (hok : (step cfg (.pseudo h name chan) (run cfg before)).2 = .ok ()) :
    let n := name.getD s!"pseudodata_{(run cfg before).pseudoNames.length}"
    Spec.at2 (run cfg (before ++ .pseudo h name chan :: after)).pseudo chan n = some (h.flatVals false) ∧
      n ∈ (run cfg (before ++ .pseudo h name chan :: after)).pseudoNames := by
  intro n
  have h0 := (addPseudo_at cfg h name chan (run cfg before)).2.2 hok
  unfold run
  rw [runOps_append]
  show Spec.at2 (runOps cfg (step cfg (.pseudo h name chan) (run cfg before)).1 after).pseudo chan n = _ ∧
    n ∈ (runOps cfg (step cfg (.pseudo h name chan) (run cfg before)).1 after).pseudoNames
  exact runOps_induction (P := fun s => Spec.at2 s.pseudo chan n = some (h.flatVals false) ∧ n ∈ s.pseudoNames) cfg
    (fun op s hs => ⟨(pseudo_step cfg op s).1 _ _ _ hs.1, (pseudo_step cfg op s).2 _ hs.2⟩) after _ ⟨h0.2.1, h0.2.2⟩

/-- C58, from the writer to the fit: a file written after any history of calls (with distinct channel names) is read with a
request of known names.  Every requested set is there under its name, and in the bins of every fitted channel it has the
values that were stored for that channel under that name. -/
theorem c58_roundtrip (cfg : Cfg V) (ops : List (Op V)) (hf : Spec.freshNames cfg {} ops)
    (iter : List String → List String) (hiter : ∀ l, (iter l).Perm l) (t : Writer.Tensor V)
    (hw : (write cfg iter (run cfg ops)).2 = .ok t)
    (req : List String) (hreq : ∀ n ∈ req, n ∈ (run cfg ops).pseudoNames) :
    ∃ p, readPseudo (some req) (ofTensor t) = .ok (some p) ∧
      (∀ n, n ∈ p.names ↔ n ∈ (run cfg ops).pseudoNames ∧ (req = [] ∨ n ∈ req)) ∧
      ∀ (k : Nat) n, p.names[k]? = some n → ∀ name a b, (name, a, b) ∈ readerFrom 0 t.channelInfo →
        ∀ c, (run cfg ops).channels.get? name = some c → c.masked = false →
          ∃ l, Spec.at2 (run cfg ops).pseudo name n = some l ∧ ∀ i, i < b - a → p.obs (a + i) k = Spec.elem l i (.fin 0) := by
  set s := run cfg ops with hsdef
  have hs : LayInv s := layInv_run cfg ops hf
  obtain ⟨lay, cells, W⟩ := write_ok hw
  obtain ⟨hb, hpw, hcov, hch, hnb⟩ := layoutFrom_bounds W.layout
  obtain ⟨hN, hn⟩ := layInv_sizes hs W.layout W.nbins
  have hnames : t.pseudoNames = iter s.pseudoNames := W.pseudoNames
  obtain ⟨p, hp, hpn, hpc, hcol⟩ := c58_select req (ofTensor t) rfl (fun n hn => by
    show n ∈ t.pseudoNames
    rw [hnames]
    exact (hiter _).mem_iff.2 (hreq n hn))
  refine ⟨p, hp, ?_, ?_⟩
  · intro n
    rw [hpn]
    split
    · rename_i he
      rw [show (ofTensor t).names = t.pseudoNames from rfl, hnames, (hiter _).mem_iff]
      simp [he]
    · rename_i he
      rw [List.mem_filter, show (ofTensor t).names = t.pseudoNames from rfl, hnames, (hiter _).mem_iff]
      simp [he]
  · intro k n hk name a b hR c hc hm
    obtain ⟨col, hcoln, hobs⟩ := hcol k n hk
    have hcoln : (iter s.pseudoNames)[col]? = some n := by rw [← hnames]; exact hcoln
    rw [reader_eq (by rw [W.channelInfo]; exact W.layout) (by rw [W.channelInfo]; exact fun n c hc => hs.get hc)] at hR
    obtain ⟨sl, hsl, he⟩ := List.mem_map.1 hR
    simp only [Prod.mk.injEq] at he
    obtain ⟨rfl, rfl, rfl⟩ := he
    have hslc : ∀ sl ∈ lay, s.channels.get? sl.name = some sl.chan := fun sl hsl =>
      Dict.get?_of_mem _ _ _ hs.nodup (by
        have : (sl.name, sl.chan) ∈ lay.map fun sl => (sl.name, sl.chan) := List.mem_map.2 ⟨sl, hsl, rfl⟩
        rw [hch] at this; exact this)
    rw [hslc sl hsl] at hc
    cases hc
    have hmask := layout_masked W.layout hs.sorted
    have hbd : ∀ sl ∈ lay, sl.chan.masked = false → sl.start + sl.n ≤ t.nbins := by
      intro sl' hsl' hm'
      have := (hmask sl' hsl').1 hm'
      rw [hn]; omega
    have hfp := W.pseudo
    unfold fillPseudo at hfp
    have hzip : (n, col) ∈ (iter s.pseudoNames).zipIdx := by
      rw [List.mem_zipIdx_iff_getElem?]
      exact hcoln
    -- the value stored for this channel
    obtain ⟨f1, f2, hin⟩ := loop_body_ok hfp sl hsl
    rw [hm] at hin
    simp only [Bool.false_eq_true, if_false] at hin
    obtain ⟨g1, g2, hin⟩ := loop_body_ok hin (n, col) hzip
    dsimp only at hin
    have hdat : ∃ l, Spec.at2 s.pseudo sl.name n = some l := by
      unfold Spec.at2
      cases hdc : s.pseudo.get? sl.name with
      | none => rw [hdc] at hin; exact nomatch hin
      | some dc =>
        rw [hdc] at hin
        dsimp only at hin
        cases hl : dc.get? n with
        | none => rw [hl] at hin; exact nomatch hin
        | some l => exact ⟨l, by rw [Option.bind_some, hl]⟩
    obtain ⟨l, hl⟩ := hdat
    refine ⟨l, hl, fun i hi => ?_⟩
    rw [hobs]
    show t.pseudo (sl.start + i) col = _
    refine (loop_obs (fun f : Nat → Nat → FVal V => f (sl.start + i) col)
      (fun c : Slot => c.chan.masked = false ∧ c.start ≤ sl.start + i ∧ sl.start + i < c.start + c.n)
      (fun c => Spec.elem ((Spec.at2 s.pseudo c.name n).getD []) (sl.start + i - c.start) (.fin 0)) (l := lay) ?_ hfp).2 _ ?_ ?_
    · intro f c f' hc hbody
      cases hmc : c.chan.masked with
      | true => rw [hmc] at hbody; cases hbody; simp
      | false =>
        rw [hmc] at hbody
        simp only [Bool.false_eq_true, if_false] at hbody
        -- the loop over the names of one channel
        have inner := loop_obs (fun f : Nat → Nat → FVal V => f (sl.start + i) col)
          (fun e : String × Nat => e.2 = col ∧ c.start ≤ sl.start + i ∧ sl.start + i < c.start + c.n)
          (fun e => Spec.elem ((Spec.at2 s.pseudo c.name e.1).getD []) (sl.start + i - c.start) (.fin 0))
          (l := (iter s.pseudoNames).zipIdx) (by
            intro f e f' he hb2
            cases hdc : s.pseudo.get? c.name with
            | none => rw [hdc] at hb2; exact nomatch hb2
            | some dc =>
              rw [hdc] at hb2
              dsimp only at hb2
              cases hle : dc.get? e.1 with
              | none => rw [hle] at hb2; exact nomatch hb2
              | some le =>
                rw [hle] at hb2
                dsimp only at hb2
                rw [assignCol_apply hb2 (hbd c hc hmc) (.fin 0)]
                have : Spec.at2 s.pseudo c.name e.1 = some le := by unfold Spec.at2; rw [hdc]; exact hle
                rw [this]
                simp only [Option.getD_some, eq_comm (a := col)]) hbody
        by_cases hcv : c.start ≤ sl.start + i ∧ sl.start + i < c.start + c.n
        · rw [if_pos ⟨rfl, hcv⟩]
          refine inner.2 _ ⟨(n, col), hzip, rfl, hcv⟩ ?_
          intro e he hec
          have : e.1 = n := by
            have := List.mem_zipIdx_iff_getElem?.1 he
            rw [hec.1, hcoln] at this
            exact (Option.some.inj this).symm
          rw [this]
        · rw [if_neg fun h => hcv h.2]
          exact inner.1 fun e _ hec => hcv hec.2
    · exact ⟨sl, hsl, hm, by omega, by omega⟩
    · intro c hc hcv
      have : c = sl := layout_unique hpw hc hsl hcv.2 ⟨by omega, by omega⟩
      subst this
      rw [hl, Option.getD_some]
      congr 1
      omega

-- a masked and a fitted channel, two sets; the second one is requested
example :
    let ops : List (Op ℚ) := [.channel [Ex.ax 2] (some "m") true false, .channel [Ex.ax 3] (some "f") false false,
      .process (Ex.h [1, 2]) "p" "m" false none, .process (Ex.h [3, 4, 5]) "p" "f" false none,
      .data (Ex.h [3, 3, 3]) "f" none, .pseudo (Ex.h [6, 7, 8]) (some "one") "f", .pseudo (Ex.h [9, 10, 11]) none "f"]
    Spec.freshNames Ex.cfg {} ops ∧ (run Ex.cfg ops).pseudoNames = ["one", "pseudodata_1"] ∧
      ((write Ex.cfg id (run Ex.cfg ops)).2.toOption.bind fun t =>
        (readPseudo (some ["pseudodata_1"]) (ofTensor t)).toOption.join.map fun p =>
          (p.names, (datasets p).map fun d => [d.1 0, d.1 1, d.1 2])) =
        some (["pseudodata_1"], [[.fin 9, .fin 10, .fin 11]]) := by
  refine ⟨?_, by decide +kernel, by decide +kernel⟩
  simp only [Spec.freshNames, Spec.addsChannel, Option.getD_some, forall_eq', false_imp_iff, implies_true, and_true]
  decide +kernel

-- an automatic name counts all names so far: the second channel gets a new one, and writing fails
example :
    let ops : List (Op ℚ) := [.channel [Ex.ax 1] (some "a") false false, .channel [Ex.ax 1] (some "b") false false,
      .process (Ex.h [1]) "p" "a" false none, .process (Ex.h [1]) "p" "b" false none, .data (Ex.h [3]) "a" none,
      .data (Ex.h [3]) "b" none, .pseudo (Ex.h [6]) none "a", .pseudo (Ex.h [6]) none "b"]
    (run Ex.cfg ops).pseudoNames = ["pseudodata_0", "pseudodata_1"] ∧
      (write Ex.cfg id (run Ex.cfg ops)).2.isOk = false := by
  refine ⟨by decide +kernel, by decide +kernel⟩

end writer

end Verif.Driver
