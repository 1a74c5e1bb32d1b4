import Mathlib.Algebra.Order.Ring.Rat

/-!
# The stellar population tables

Copied from `/repo/src/arepo_postprocess/bpass.rs` as exact decimal fractions (the code has the nearest `f64`).
-/

namespace Verif.Bpass

/-- `BPASS_AGE_BINS` (`bpass.rs` lines 61-113), in years. -/
def ageBins : List ℚ :=
  [
    1.00000000e6, 1.25892541e6, 1.58489319e6, 1.99526231e6, 2.51188643e6, 3.16227766e6, 3.98107171e6,
    5.01187234e6, 6.30957344e6, 7.94328235e6, 1.00000000e7, 1.25892541e7, 1.58489319e7, 1.99526231e7,
    2.51188643e7, 3.16227766e7, 3.98107171e7, 5.01187234e7, 6.30957344e7, 7.94328235e7, 1.00000000e8,
    1.25892541e8, 1.58489319e8, 1.99526231e8, 2.51188643e8, 3.16227766e8, 3.98107171e8, 5.01187234e8,
    6.30957344e8, 7.94328235e8, 1.00000000e9, 1.25892541e9, 1.58489319e9, 1.99526231e9, 2.51188643e9,
    3.16227766e9, 3.98107171e9, 5.01187234e9, 6.30957344e9, 7.94328235e9, 1.00000000e10, 1.25892541e10,
    1.58489319e10, 1.99526231e10, 2.51188643e10, 3.16227766e10, 3.98107171e10, 5.01187234e10,
    6.30957344e10, 7.94328235e10, 1.00000000e11]

/-- `BPASS_METALLICITY_BINS` (`bpass.rs` lines 115-118). -/
def metallicityBins : List ℚ :=
  [
    1.0e-5, 1.0e-4, 1.0e-3, 2.0e-3, 3.0e-3, 4.0e-3, 6.0e-3, 8.0e-3, 1.0e-2, 1.4e-2, 2.0e-2, 3.0e-2,
    4.0e-2]

/-- `BPASS_TABLE` (`bpass.rs` lines 120-886), photons per second and solar mass; rows are ages. -/
def table : List (List ℚ) :=
  [
  [
    4.22119750e46, 4.11037266e46, 4.00498367e46, 4.04825020e46, 4.03299634e46, 4.01878889e46,
    3.99539130e46, 3.91022835e46, 3.85809308e46, 3.66317441e46, 3.56523816e46, 3.41850883e46,
    3.34144693e46],
  [
    4.71532649e46, 4.61303242e46, 4.69053909e46, 4.65785492e46, 4.55349796e46, 4.47576653e46,
    4.33997913e46, 4.18178708e46, 4.04890650e46, 3.63717334e46, 3.42128803e46, 3.02583642e46,
    2.86809438e46],
  [
    5.03932484e46, 5.02587803e46, 5.02914570e46, 4.90438712e46, 4.73979763e46, 4.63427630e46,
    4.44168652e46, 4.26563559e46, 4.03772954e46, 3.53628832e46, 3.24544345e46, 2.71690607e46,
    2.41658159e46],
  [
    5.68408989e46, 5.62260343e46, 5.29877273e46, 5.09791117e46, 4.87241936e46, 4.68992976e46,
    4.41623005e46, 4.14455405e46, 3.76764225e46, 3.28340957e46, 2.85948739e46, 2.14944739e46,
    1.80216454e46],
  [
    6.41617828e46, 6.19966678e46, 5.37002134e46, 5.03664547e46, 4.68593767e46, 4.37378019e46,
    3.94872536e46, 3.53350359e46, 3.05127468e46, 2.54284498e46, 2.16874301e46, 1.61456943e46,
    1.40691116e46],
  [
    6.15016125e46, 5.68894406e46, 4.93842423e46, 4.53376813e46, 4.16668159e46, 3.83133624e46,
    3.33895114e46, 2.97296731e46, 2.58550755e46, 2.02472067e46, 1.89161127e46, 1.34468187e46,
    1.18730797e46],
  [
    4.61709710e46, 4.21860019e46, 3.39392286e46, 3.20504403e46, 2.89853264e46, 2.64461654e46,
    2.28410554e46, 2.07392616e46, 1.79417724e46, 1.40071755e46, 1.23997361e46, 8.00472755e45,
    6.52153030e45],
  [
    3.51946810e46, 3.07958288e46, 2.17694085e46, 1.88350530e46, 1.77991761e46, 1.67236691e46,
    1.28077827e46, 1.11477113e46, 9.49416240e45, 7.54103983e45, 6.69250874e45, 4.44995022e45,
    3.43280950e45],
  [
    2.43980538e46, 2.03603461e46, 1.26748932e46, 1.04268938e46, 9.19249728e45, 8.80358864e45,
    6.54030793e45, 5.87317024e45, 4.91396938e45, 3.88025776e45, 3.20004386e45, 2.28463891e45,
    1.90397743e45],
  [
    1.49216673e46, 1.20675998e46, 7.41644827e45, 5.68398165e45, 4.72498999e45, 4.22958317e45,
    2.94744274e45, 2.66931611e45, 2.40242705e45, 2.06304292e45, 1.95545602e45, 1.37056891e45,
    1.12821580e45],
  [
    7.97926599e45, 6.62285390e45, 4.06765326e45, 3.16070647e45, 2.64032209e45, 2.22389625e45,
    1.56121376e45, 1.43346521e45, 1.34038299e45, 1.13779828e45, 1.02595726e45, 8.42882568e44,
    7.15384640e44],
  [
    3.44747799e45, 3.01016838e45, 2.15194071e45, 1.74071204e45, 1.47289599e45, 1.22616254e45,
    8.55575552e44, 7.92073846e44, 7.50295387e44, 6.57238966e44, 5.96598615e44, 4.71049791e44,
    4.44519850e44],
  [
    1.43656431e45, 1.06382874e45, 7.27078135e44, 7.48126778e44, 7.46274043e44, 6.91280610e44,
    5.10760313e44, 4.34220170e44, 4.09621470e44, 3.83611896e44, 3.24700430e44, 2.93562325e44,
    2.68246493e44],
  [
    5.35868972e44, 4.01984200e44, 4.00903516e44, 3.98680699e44, 3.72247304e44, 3.71294029e44,
    2.60254530e44, 2.55303518e44, 2.42494240e44, 2.13922010e44, 2.05130766e44, 2.13739519e44,
    1.76862616e44],
  [
    1.36932260e44, 1.10361636e44, 1.80116319e44, 1.77780725e44, 1.68691328e44, 1.60071347e44,
    1.84877419e44, 1.56624059e44, 1.54746400e44, 1.46823261e44, 1.21395508e44, 1.15719324e44,
    1.36296583e44],
  [
    6.67152621e43, 7.30339884e43, 1.38155905e44, 1.33508951e44, 1.21494566e44, 1.13977391e44,
    1.12566663e44, 1.10005446e44, 1.01182794e44, 9.13568389e43, 9.60415804e43, 9.03594703e43,
    8.60693400e43],
  [
    3.10744807e43, 5.19661360e43, 9.25227573e43, 9.27007195e43, 8.45597432e43, 7.91328774e43,
    7.46298467e43, 7.46872339e43, 7.43239620e43, 7.72094748e43, 6.72912324e43, 6.37512210e43,
    5.58040527e43],
  [
    2.00429333e43, 3.92430557e43, 7.16720120e43, 7.41329030e43, 6.09547907e43, 6.26347610e43,
    6.36338617e43, 5.81174191e43, 5.66675910e43, 4.55998269e43, 4.92656943e43, 4.37972655e43,
    4.40449696e43],
  [
    1.21286082e43, 2.56007095e43, 5.15926471e43, 4.67239833e43, 5.36252992e43, 4.13193033e43,
    3.93536180e43, 3.98222778e43, 3.35963845e43, 4.17278149e43, 4.51298955e43, 3.25689392e43,
    3.45316826e43],
  [
    7.47763970e42, 1.78388785e43, 3.31821548e43, 3.44588055e43, 3.30695898e43, 2.58686516e43,
    2.65124181e43, 3.00544385e43, 2.16713642e43, 2.51872775e43, 2.76536724e43, 2.64588101e43,
    2.41363779e43],
  [
    4.62724383e42, 1.24037120e43, 2.27643240e43, 2.35645850e43, 2.85375102e43, 2.65318664e43,
    2.39084134e43, 1.82840119e43, 1.72266723e43, 1.99992558e43, 1.82586719e43, 1.64877034e43,
    1.51682600e43],
  [
    3.19897702e42, 8.29132268e42, 1.49243526e43, 1.47381267e43, 1.98596440e43, 1.56797933e43,
    1.27773892e43, 1.81809748e43, 1.28408206e43, 1.38635845e43, 1.19748191e43, 1.13057919e43,
    1.14319363e43],
  [
    1.42571004e42, 4.20043221e42, 6.94480142e42, 7.89145110e42, 9.38480262e42, 9.20568503e42,
    9.62880153e42, 9.97219965e42, 7.63609719e42, 8.33741533e42, 9.46318661e42, 6.83023453e42,
    7.51494860e42],
  [
    1.16516529e42, 1.84580331e42, 4.31199597e42, 4.88973172e42, 6.33320593e42, 7.02891564e42,
    6.20859297e42, 6.10980136e42, 4.45253158e42, 4.29615937e42, 4.49995937e42, 2.96952821e42,
    3.42921902e42],
  [
    9.41626206e41, 1.09975181e42, 2.07738399e42, 3.58708980e42, 3.47788716e42, 4.54769168e42,
    4.22271497e42, 4.02883431e42, 2.70802139e42, 3.15433777e42, 4.19489196e42, 2.21357118e42,
    2.60037719e42],
  [
    4.57040673e41, 4.85833225e41, 1.42970962e42, 1.87696509e42, 2.40324158e42, 2.59724294e42,
    2.80448625e42, 2.60383243e42, 1.54649774e42, 1.72422815e42, 1.80750500e42, 1.31671863e42,
    1.29669986e42],
  [
    2.67153281e41, 4.45239254e41, 8.20671059e41, 1.10776758e42, 1.64765004e42, 2.09655149e42,
    1.87523511e42, 1.52349528e42, 8.73627114e41, 5.59539778e41, 5.84606091e41, 4.41348797e41,
    5.33034490e41],
  [
    1.54298547e41, 1.87802909e41, 4.46365771e41, 4.98133224e41, 4.55269293e41, 9.86769742e41,
    7.56289828e41, 6.84900983e41, 4.18965808e41, 3.98065667e41, 4.80990294e41, 3.97201422e41,
    4.40138316e41],
  [
    9.05557685e40, 1.22586760e41, 2.10709695e41, 2.51112576e41, 2.80410227e41, 5.73480658e41,
    5.89214015e41, 4.61620366e41, 2.59988749e41, 2.05468002e41, 2.67563553e41, 1.97659096e41,
    1.99002155e41],
  [
    6.36116589e40, 7.65198671e40, 1.51110467e41, 1.82618860e41, 1.97049051e41, 2.86279253e41,
    2.55367860e41, 2.34709739e41, 1.67140036e41, 2.06437441e41, 1.91975120e41, 1.40978701e41,
    1.67833640e41],
  [
    4.51931964e40, 1.04801192e41, 1.10464926e41, 8.87750301e40, 1.07765927e41, 1.36815853e41,
    1.44357455e41, 9.57168856e40, 1.19922361e41, 1.06610473e41, 1.40634892e41, 1.58812318e41,
    1.76099183e41],
  [
    5.44499671e40, 5.10587634e40, 1.26850437e41, 9.24934930e40, 7.92907207e40, 8.80519071e40,
    9.86810820e40, 6.46766139e40, 3.45349361e40, 9.26713024e40, 7.85000012e40, 1.08572729e41,
    1.06065623e41],
  [
    4.19739199e40, 3.80925425e40, 5.80847063e40, 8.74346949e40, 8.08075641e40, 8.40021806e40,
    9.86406473e40, 4.29066901e40, 5.70136326e40, 4.30624165e40, 4.56865090e40, 3.10298146e40,
    6.06444983e40],
  [
    2.56927508e40, 2.65511466e40, 4.81643625e40, 5.14329677e40, 4.93314939e40, 5.93958355e40,
    5.90770070e40, 5.81412012e40, 5.93074316e40, 5.49378929e40, 6.87266023e40, 6.94893786e40,
    5.61387070e40],
  [
    2.19101711e40, 2.29629043e40, 3.55257699e40, 3.50805060e40, 3.62979491e40, 4.04097690e40,
    4.39791617e40, 3.99443305e40, 4.68166255e40, 6.45213251e40, 5.41870132e40, 6.42915116e40,
    6.98036706e40],
  [
    1.91215247e40, 1.71072374e40, 2.12961452e40, 2.79556747e40, 2.72416205e40, 2.96713563e40,
    3.23184865e40, 3.11271202e40, 3.15995516e40, 3.94631997e40, 4.44039784e40, 5.46583985e40,
    4.45581567e40],
  [
    2.20111632e40, 1.65783623e40, 1.94917221e40, 1.61622441e40, 1.96027851e40, 2.08862086e40,
    2.18689143e40, 2.86895973e40, 2.89985972e40, 3.04897614e40, 3.37148298e40, 3.91880262e40,
    5.10595402e40],
  [
    7.62626795e39, 6.62110570e39, 1.00405679e40, 1.61077599e40, 1.71784821e40, 1.79484935e40,
    1.65900227e40, 1.98702136e40, 2.56108609e40, 2.19137694e40, 3.08038639e40, 3.31004624e40,
    3.49052862e40],
  [
    1.90473697e40, 1.01185795e40, 9.59908230e39, 1.09763332e40, 1.02849084e40, 9.73617795e39,
    1.61013264e40, 1.71529740e40, 1.39482550e40, 1.86762651e40, 2.07796692e40, 2.22639993e40,
    2.52821647e40],
  [
    1.51369396e40, 1.17473139e40, 1.01316930e40, 6.94983752e39, 8.12420867e39, 1.17004954e40,
    1.04930616e40, 1.03284011e40, 1.39822944e40, 1.63416255e40, 1.36153273e40, 2.00647138e40,
    8.51297781e38],
  [
    2.31950011e39, 4.79684878e39, 5.75308051e39, 9.50867685e39, 9.40270815e39, 9.54624983e39,
    7.91204691e39, 9.41195956e39, 1.10647604e40, 9.43570018e39, 1.44631455e40, 1.32768176e40,
    4.19063321e41],
  [
    2.39937511e40, 1.25408099e40, 7.90569240e39, 5.82076245e39, 6.79126890e39, 4.82566656e39,
    9.37457672e39, 9.31702868e39, 8.26777634e39, 9.71026960e39, 9.40762884e39, 1.14475349e39,
    3.69984650e41],
  [
    3.17441593e39, 2.85735622e39, 3.17689315e39, 5.67304913e39, 7.49265412e39, 8.04705532e39,
    7.04618841e39, 7.35329145e39, 8.76497584e39, 8.37279266e39, 8.16236409e39, 2.19052203e38,
    2.12661176e41],
  [
    4.09890563e38, 1.25190489e39, 3.96847776e39, 5.08075277e39, 4.00879424e39, 4.20904882e39,
    5.19996384e39, 5.88170752e39, 6.43041869e39, 7.25838563e39, 3.20376518e39, 1.57708542e41,
    2.31312836e41],
  [
    9.65885757e38, 1.54019787e39, 2.69853705e39, 3.06286069e39, 3.21678315e39, 5.14606404e39,
    6.07760493e39, 6.18172595e39, 6.69549700e39, 6.20776245e39, 1.35861221e37, 2.86711372e41,
    1.54125926e41],
  [
    2.35770217e39, 5.01508365e39, 2.66883106e39, 2.78604690e39, 3.00885911e39, 3.31240904e39,
    3.60545853e39, 3.72070525e39, 3.75042319e39, 2.22344448e39, 8.61628347e40, 3.43510263e41,
    7.39207065e40],
  [
    1.55783687e40, 9.68313853e39, 1.40060963e40, 4.55702621e39, 2.70825874e39, 2.99977114e39,
    3.31856730e39, 3.47890698e39, 1.69092083e39, 5.83819678e35, 2.55250457e41, 1.39616117e41,
    6.25660370e40],
  [
    2.70326969e41, 1.45126708e41, 6.30203284e40, 4.50004224e40, 2.67887440e39, 2.40169560e39,
    2.48193290e39, 2.99556701e36, 1.36918683e35, 9.48034859e40, 2.52142186e41, 1.47806413e41,
    1.60088651e41],
  [
    4.19219774e41, 3.61438684e41, 3.03860333e41, 1.28591345e41, 6.17727532e40, 3.11986919e37,
    3.21818917e38, 2.49209825e40, 8.13440151e40, 2.65639704e41, 1.86641011e41, 6.15264101e40,
    4.50143395e40],
  [
    9.96352739e39, 1.55752189e41, 3.32392272e41, 2.52454162e41, 2.68280569e41, 9.85563485e40,
    7.29400656e40, 3.37828143e41, 1.42512075e41, 2.21478991e41, 9.50992428e40, 1.09893312e41,
    1.07608542e40],
  [
    1.74275203e37, 1.19014479e41, 1.82704975e30, 1.04957724e41, 4.90569163e37, 1.50014482e41,
    1.38429279e41, 1.37787275e41, 1.05340211e41, 9.25344709e40, 7.27523308e40, 8.65606930e40,
    7.26148342e39]]

end Verif.Bpass
