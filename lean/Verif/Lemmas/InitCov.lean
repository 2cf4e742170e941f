import Verif.Lemmas.Covariance
import Verif.Model.Managers

/-!
# A certificate that the symmetric part of the initial covariance is positive semidefinite

`8 (P + Pᵀ) / 2` of the core block, in units of 0.0001, is an integer matrix; a positive multiple of
it is a sum of squares of integer linear forms (found by symmetric elimination).  The identity is
checked by the kernel on all 225 entries of this one matrix; the theorem about all vectors follows.
-/

namespace MSF

open Matrix

/-- A table of integers as a function. -/
def tab (t : List (List Int)) (i j : Nat) : Int := (t[i]?.getD [])[j]?.getD 0

/-- Eight times the symmetric part of `symInPlace` of a table. -/
def sym8 (t : List (List Int)) (i j : Nat) : Int :=
  if i < j then 5 * tab t i j + 3 * tab t j i
  else if j < i then 5 * tab t j i + 3 * tab t i j
  else 8 * tab t i i

/-- The linear forms. -/
def certForms : List (List Int) :=
  [[1328, 997, -114, 1685,
    649, 0, 96, -93,
    8, 0, 0, 0,
    -24, -16, 0],
   [0, 4402983, -54998, 154023,
    4058051, 59760, 132704, 151153,
    -29224, 0, 0, 0,
    55800, -5296, 0],
   [0, 0, 4956422764, -294582396,
    2143733606, 2798369115, 275138747, 217675999,
    1813448, 0, 0, 0,
    -41984160, -147162256, -35223864],
   [0, 0, 0, 836393674831,
    -16991352030, -65548608611, 5830710832, -35340845724,
    -75186652920, 0, 0, 0,
    32473999092, 6476937148, -294582396],
   [0, 0, 0, 0,
    3103551872816822, -772016396842131, 117343724286597, 66919103129479,
    27983936934242, 0, 0, 0,
    3666062145392, 75548619340458, 5771904328664],
   [0, 0, 0, 0,
    0, 247157892039349719, -4633211829769505, -7083479036851674,
    -2342407653222737, 0, 0, 0,
    -6443725107085752, 17281700338191631, -1180322334550024],
   [0, 0, 0, 0,
    0, 0, 40944330118903418014, -1498934756387335371,
    8955939755157340237, 0, 0, 0,
    479493475017334152, -10238052479915606120, 462009350415812768],
   [0, 0, 0, 0,
    0, 0, 0, 968174253449648370580,
    -497587345938648808124, 0, 0, 0,
    288931382750217686048, -169808491513850759905, 7793016305677375744],
   [0, 0, 0, 0,
    0, 0, 0, 0,
    7096079064852646826904, 0, 0, 0,
    2068838205415371055992, 35581144038951097215, -13735753156570269544],
   [0, 0, 0, 0,
    0, 0, 0, 0,
    0, 0, 0, 0,
    21269100562720676755896, 384181053925630541505, -49131448839878202040],
   [0, 0, 0, 0,
    0, 0, 0, 0,
    0, 0, 0, 0,
    0, 220812676619224335409539, -85849917772048745680],
   [0, 0, 0, 0,
    0, 0, 0, 0,
    0, 0, 0, 0,
    0, 0, 1]]

/-- The weights. -/
def certWeights : List Nat :=
  [1745440219166880499044624652916911854697134544943596944021758652752119456585316282902968196372876706866609080696773695765981593293198034542568832048133973427095,
   396422202667346319312299105610199234177632424413993182354271786366679012066436841319389195091799515661679611458135017956231398870538004471643163747880465,
   106215452193866954010853060526042040224132878190005614736231756257616471560582180651155780036262814000486768004119211136339478264101215789336190180,
   4473155112670160300068983446897457092394985253694172711886825833789698522433558028007581412597982268743843445963835242084530823500001977381920,
   446481336866194218352255005127857971357015410647727045128269603862414660396667912607779285140906850559651655562492890263333624734487940,
   21152787321706390170693823288968099412296660617000951561337411753249555920093799860129075461858767666679875369005785634778926830840,
   32721768012628128389150665031867612786083146166059873190410326442607662999132043775383332167993135419581616181050499566974680,
   58473050939849995892620258680074816301110596666490501452260336090118436448446188498058471327965086968589815419417796112318,
   1349556496685054542185095631369748689001640602995181568489349513048129365966610819979622538208377162048911262752392220502,
   368592696192237648782979017686002495288031547625972922355671158098904601479559140075453564232309340029303116579956805510,
   3454840222617699542486553468425437361316221122896875548877202065810673587588405645332752680733707550887053167374837230,
   18355335796791399431619980470708463194419123652965785121002351539391542691516107894494853783312652794427920461746532690953858533604497911148011834515014927594098560]

/-- The common factor. -/
def certFactor : Nat :=
  2317944611053617302731261539073658943037794675685096741660895490854814638345300023695141764783180266718856859165315467977223555893366989872531408959921916711182160

/-- The identity of the certificate. -/
theorem cert_identity : ∀ i j : Fin 15, (certFactor : Int) * sym8 pCoreTable i j =
    ∑ k ∈ Finset.range 12,
      ((certWeights[k]?.getD 0 : Nat) : Int) * tab certForms k i * tab certForms k j := by
  decide +kernel

/-- Every entry of the table that the certificate reads exists. -/
theorem pCoreTable_shape : pCoreTable.length = 15 ∧ ∀ r ∈ pCoreTable, r.length = 15 := by
  decide

end MSF
