import Verif.Model.ReadCols

/-!
Model of the programs `corr2` and `corr3` (treecorr/exec_corr2.py, treecorr/exec_corr3.py): which catalogues are correlated with which,
and what is written to which file.  A correlation object is the term which says on what it has been processed, an output the term which
says from what it has been computed; what `process` and `write` do with them is the subject of the other files.  The configuration has
passed `check_config` (`Model/Config.lean`).
-/

namespace TreeCorr
namespace Exec
open ReadCols (OutKey Fld)

/-- The kinds of values of a correlation class; `none` is N. -/
abbrev Letter := Option Fld

/-- The four lists of catalogues, /repo/treecorr/exec_corr2.py:190-193. -/
inductive Src where
  | cat1 | cat2 | rand1 | rand2
  deriving DecidableEq

/-- An object of the class with these two letters after `process(c1, c2)`; `c2 = none` is `process(c1)`. -/
structure Corr where
  l1 : Letter
  l2 : Letter
  c1 : Src
  c2 : Option Src
  deriving DecidableEq

/-- What is written: `dd.write(rr, dr, rd)`, `nk.write(rk)`, `kk.write()`, `ng.writeNMap(rg)`, `ng.writeNorm(gg, dd, rr, dr, rg)`,
`gg.writeMapSq()`. -/
inductive Out where
  | counts (dd : Corr) (rr dr rd : Option Corr)
  | cross (nk : Corr) (rk : Option Corr)
  | plain (kk : Corr)
  | nmap (ng : Corr) (rg : Option Corr)
  | norm (ng gg dd rr : Corr) (dr rg : Option Corr)
  | mapSq (gg : Corr)
  deriving DecidableEq

inductive Stat where
  | compensated | simple
  deriving DecidableEq

/-- The input: the outputs asked for, the values of `nn_statistic` (always there, with the default 'compensated') and of `nk_statistic` etc.
(`none`: not there; `some none`: there with the value `None`), and which of the four lists of catalogues are not empty. -/
structure In where
  has : OutKey → Bool
  nnStat : Stat
  stat : Fld → Option (Option Stat)
  there : Src → Bool

/-- The files written, in order, and the exception that has ended the run. -/
abbrev Run := List (OutKey × Out) × Option PyErr

/-- One block after another. -/
def andThen (a b : Run) : Run := if a.2.isSome then a else (a.1 ++ b.1, b.2)

variable (i : In)

/-- `cat2`, or `None` if the list is empty: the second argument of `process`, /repo/treecorr/exec_corr2.py:196-198. -/
def opt (s : Src) : Option Src := if i.there s then some s else none

/-- The NN block, /repo/treecorr/exec_corr2.py:203-243. -/
def blockNN : Run :=
  if i.has .nn then
    let dd : Corr := ⟨none, none, .cat1, opt i .cat2⟩
    if !i.there .rand1 then ([(.nn, .counts dd none none none)], none)
    else if !i.there .cat2 then
      let rr : Corr := ⟨none, none, .rand1, none⟩
      let dr : Option Corr := if i.nnStat = .compensated then some ⟨none, none, .cat1, some .rand1⟩ else none
      ([(.nn, .counts dd (some rr) dr none)], none)
    else if !i.there .rand2 then ([], some .typeError)
    else
      let rr : Corr := ⟨none, none, .rand1, some .rand2⟩
      let dr : Option Corr := if i.nnStat = .compensated then some ⟨none, none, .cat1, some .rand2⟩ else none
      let rd : Option Corr := if i.nnStat = .compensated then some ⟨none, none, .rand1, some .cat2⟩ else none
      ([(.nn, .counts dd (some rr) dr rd)], none)
  else ([], none)

/-- `rk`, /repo/treecorr/exec_corr2.py:254-261, and likewise for the other kinds (283-291, 355-363, 397-405, 439-447, 481-489). -/
def rkOf (F : Fld) : Except PyErr (Option Corr) :=
  if !i.there .rand1 then
    if (i.stat F).join = some .compensated then .error .typeError else .ok none
  else if (i.stat F).getD (some .compensated) = some .compensated then .ok (some ⟨none, some F, .rand1, some .cat2⟩)
  else .ok none

/-- The NK block, /repo/treecorr/exec_corr2.py:245-264; NZ 346-366, NV 388-408, NT 430-450, NQ 472-492. -/
def blockN (F : Fld) (key : OutKey) : Run :=
  if i.has key then
    if !i.there .cat2 then ([], some .typeError)
    else match rkOf i F with
      | .error e => ([], some e)
      | .ok rk => ([(key, .cross ⟨none, some F, .cat1, some .cat2⟩ rk)], none)
  else ([], none)

/-- The KK block, /repo/treecorr/exec_corr2.py:266-273; ZZ 379-386, VV 421-428, TT 463-470, QQ 505-512. -/
def blockAuto (F : Fld) (key : OutKey) : Run :=
  if i.has key then ([(key, .plain ⟨some F, some F, .cat1, opt i .cat2⟩)], none) else ([], none)

/-- The KG block, /repo/treecorr/exec_corr2.py:322-331; KZ 368-377, KV 410-419, KT 452-461, KQ 494-503. -/
def blockK (F : Fld) (key : OutKey) : Run :=
  if i.has key then
    if !i.there .cat2 then ([], some .typeError) else ([(key, .plain ⟨some .K, some F, .cat1, some .cat2⟩)], none)
  else ([], none)

/-- The part of the NG block after `rg`: three outputs, /repo/treecorr/exec_corr2.py:293-320.  `rr.process(None)` fails with an
AttributeError, /repo/treecorr/corr2base.py:1123-1124. -/
def writeNG (rg : Option Corr) : Run :=
  let ng : Corr := ⟨none, some .G, .cat1, some .cat2⟩
  andThen (if i.has .ng then ([(.ng, .cross ng rg)], none) else ([], none)) <|
  andThen (if i.has .nm then ([(.nm, .nmap ng rg)], none) else ([], none)) <|
  if i.has .norm then
    if !i.there .rand1 then ([], some .attributeError)
    else
      let dr : Option Corr := if i.nnStat = .compensated then some ⟨none, none, .cat1, some .rand1⟩ else none
      ([(.norm, .norm ng ⟨some .G, some .G, .cat2, none⟩ ⟨none, none, .cat1, none⟩ ⟨none, none, .rand1, none⟩ dr rg)], none)
  else ([], none)

/-- The NG block, /repo/treecorr/exec_corr2.py:275-320. -/
def blockNG : Run :=
  if i.has .ng || i.has .nm || i.has .norm then
    if !i.there .cat2 then ([], some .typeError)
    else match rkOf i .G with
      | .error e => ([], some e)
      | .ok rg => writeNG i rg
  else ([], none)

/-- The GG block, /repo/treecorr/exec_corr2.py:333-344. -/
def blockGG : Run :=
  if i.has .gg || i.has .m2 then
    let gg : Corr := ⟨some .G, some .G, .cat1, opt i .cat2⟩
    ((if i.has .gg then [(.gg, .plain gg)] else []) ++ (if i.has .m2 then [(.m2, .mapSq gg)] else []), none)
  else ([], none)

/-- The blocks in order, /repo/treecorr/exec_corr2.py:203-512. -/
def blocks : List Run :=
  [blockNN i, blockN i .K .nk, blockAuto i .K .kk, blockNG i, blockK i .G .kg, blockGG i,
    blockN i .Z .nz, blockK i .Z .kz, blockAuto i .Z .zz, blockN i .V .nv, blockK i .V .kv, blockAuto i .V .vv,
    blockN i .T .nt, blockK i .T .kt, blockAuto i .T .tt, blockN i .Q .nq, blockK i .Q .kq, blockAuto i .Q .qq]

/-- `corr2`, /repo/treecorr/exec_corr2.py:150-512, from the point where the catalogues have been read. -/
def corr2 : Run :=
  if !i.there .cat1 then ([], some .typeError)
  else if !i.there .cat2 && i.there .rand2 then ([], some .typeError)
  else (blocks i).foldr andThen ([], none)

/-! ### `corr3` -/

/-- `ggg` stands for the parameter `ggg_file_name`, and so on, /repo/treecorr/exec_corr3.py:46-63. -/
inductive OutKey3 where
  | nnn | kkk | ggg | m3
  deriving DecidableEq

/-- An object of the class with three times this letter after `process(c1)` or `process(c1, c2, ordered=False)`. -/
structure Tri where
  l : Letter
  c1 : Src
  c2 : Option Src
  deriving DecidableEq

/-- `ddd.write(rrr, drr, rdd)`, `kkk.write()`, `ggg.writeMap3()`. -/
inductive Out3 where
  | counts (ddd : Tri) (rrr drr rdd : Option Tri)
  | plain (kkk : Tri)
  | map3 (ggg : Tri)
  deriving DecidableEq

/-- The input of `corr3`: outputs asked for, `nnn_statistic`, and whether there are data and randoms. -/
structure In3 where
  has : OutKey3 → Bool
  nnnStat : Stat
  cat : Bool
  rand : Bool

/-- `corr3`, /repo/treecorr/exec_corr3.py:108-167. -/
def corr3 (i : In3) : List (OutKey3 × Out3) × Option PyErr :=
  if !i.cat then ([], some .typeError)
  else
    let g : List (OutKey3 × Out3) :=
      if i.has .ggg || i.has .m3 then
        (if i.has .ggg then [(.ggg, .plain ⟨some .G, .cat1, none⟩)] else []) ++
          (if i.has .m3 then [(.m3, .map3 ⟨some .G, .cat1, none⟩)] else [])
      else []
    let n : List (OutKey3 × Out3) :=
      if i.has .nnn then
        let rrr : Option Tri := if i.rand then some ⟨none, .rand1, none⟩ else none
        let drr : Option Tri := if rrr.isSome ∧ i.nnnStat = .compensated then some ⟨none, .cat1, some .rand1⟩ else none
        let rdd : Option Tri := if rrr.isSome ∧ i.nnnStat = .compensated then some ⟨none, .rand1, some .cat1⟩ else none
        [(.nnn, .counts ⟨none, .cat1, none⟩ rrr drr rdd)]
      else []
    let k : List (OutKey3 × Out3) := if i.has .kkk then [(.kkk, .plain ⟨some .K, .cat1, none⟩)] else []
    (g ++ n ++ k, none)

end Exec
end TreeCorr
