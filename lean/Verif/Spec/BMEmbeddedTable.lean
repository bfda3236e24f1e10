import Verif.Spec.BMConfig
/-!
# The embedded Beider-Morse rules, line by line

The rules of the 18 files of `rules/bm` (line number, pattern, left context, right context, phonemes), in the order of the
file.  They were extracted from the files by a script that does not share code with the model of the parsers, and the names
of the tables are the names of the files.
-/

namespace Verif.Spec
open BM

/-- A line of a rule file: its number and the four texts between quotes. -/
structure EmbeddedLine where
  line : Nat
  pattern : Str
  left : Str
  right : Str
  phonemes : Str

/-- Rules of `rules/bm/ash_approx_any.txt`, part 1. -/
def ashApproxAnyLines1 : List EmbeddedLine := [
  ⟨25, c!"b", c!"", c!"", c!"(b|v[spanish])"⟩,
  ⟨26, c!"J", c!"", c!"", c!"z"⟩,
  ⟨33, c!"aiB", c!"", c!"[bp]", c!"(D|Dm)"⟩,
  ⟨34, c!"AiB", c!"", c!"[bp]", c!"(D|Dm)"⟩,
  ⟨35, c!"oiB", c!"", c!"[bp]", c!"(D|Dm)"⟩,
  ⟨36, c!"OiB", c!"", c!"[bp]", c!"(D|Dm)"⟩,
  ⟨37, c!"uiB", c!"", c!"[bp]", c!"(D|Dm)"⟩,
  ⟨38, c!"UiB", c!"", c!"[bp]", c!"(D|Dm)"⟩,
  ⟨39, c!"eiB", c!"", c!"[bp]", c!"(D|Dm)"⟩,
  ⟨40, c!"EiB", c!"", c!"[bp]", c!"(D|Dm)"⟩,
  ⟨41, c!"iiB", c!"", c!"[bp]", c!"(D|Dm)"⟩,
  ⟨42, c!"IiB", c!"", c!"[bp]", c!"(D|Dm)"⟩,
  ⟨44, c!"aiB", c!"", c!"[dgkstvz]", c!"(D|Dn)"⟩,
  ⟨45, c!"AiB", c!"", c!"[dgkstvz]", c!"(D|Dn)"⟩,
  ⟨46, c!"oiB", c!"", c!"[dgkstvz]", c!"(D|Dn)"⟩,
  ⟨47, c!"OiB", c!"", c!"[dgkstvz]", c!"(D|Dn)"⟩,
  ⟨48, c!"uiB", c!"", c!"[dgkstvz]", c!"(D|Dn)"⟩,
  ⟨49, c!"UiB", c!"", c!"[dgkstvz]", c!"(D|Dn)"⟩,
  ⟨50, c!"eiB", c!"", c!"[dgkstvz]", c!"(D|Dn)"⟩,
  ⟨51, c!"EiB", c!"", c!"[dgkstvz]", c!"(D|Dn)"⟩,
  ⟨52, c!"iiB", c!"", c!"[dgkstvz]", c!"(D|Dn)"⟩,
  ⟨53, c!"IiB", c!"", c!"[dgkstvz]", c!"(D|Dn)"⟩,
  ⟨55, c!"B", c!"", c!"[bp]", c!"(o|om[polish]|im[polish])"⟩,
  ⟨56, c!"B", c!"", c!"[dgkstvz]", c!"(a|o|on[polish]|in[polish])"⟩,
  ⟨57, c!"B", c!"", c!"", c!"(a|o)"⟩,
  ⟨59, c!"aiF", c!"", c!"[bp]", c!"(D|Dm)"⟩,
  ⟨60, c!"AiF", c!"", c!"[bp]", c!"(D|Dm)"⟩,
  ⟨61, c!"oiF", c!"", c!"[bp]", c!"(D|Dm)"⟩,
  ⟨62, c!"OiF", c!"", c!"[bp]", c!"(D|Dm)"⟩,
  ⟨63, c!"uiF", c!"", c!"[bp]", c!"(D|Dm)"⟩,
  ⟨64, c!"UiF", c!"", c!"[bp]", c!"(D|Dm)"⟩,
  ⟨65, c!"eiF", c!"", c!"[bp]", c!"(D|Dm)"⟩,
  ⟨66, c!"EiF", c!"", c!"[bp]", c!"(D|Dm)"⟩,
  ⟨67, c!"iiF", c!"", c!"[bp]", c!"(D|Dm)"⟩,
  ⟨68, c!"IiF", c!"", c!"[bp]", c!"(D|Dm)"⟩,
  ⟨70, c!"aiF", c!"", c!"[dgkstvz]", c!"(D|Dn)"⟩,
  ⟨71, c!"AiF", c!"", c!"[dgkstvz]", c!"(D|Dn)"⟩,
  ⟨72, c!"oiF", c!"", c!"[dgkstvz]", c!"(D|Dn)"⟩,
  ⟨73, c!"OiF", c!"", c!"[dgkstvz]", c!"(D|Dn)"⟩,
  ⟨74, c!"uiF", c!"", c!"[dgkstvz]", c!"(D|Dn)"⟩,
  ⟨75, c!"UiF", c!"", c!"[dgkstvz]", c!"(D|Dn)"⟩,
  ⟨76, c!"eiF", c!"", c!"[dgkstvz]", c!"(D|Dn)"⟩,
  ⟨77, c!"EiF", c!"", c!"[dgkstvz]", c!"(D|Dn)"⟩,
  ⟨78, c!"iiF", c!"", c!"[dgkstvz]", c!"(D|Dn)"⟩,
  ⟨79, c!"IiF", c!"", c!"[dgkstvz]", c!"(D|Dn)"⟩,
  ⟨81, c!"F", c!"", c!"[bp]", c!"(i|im[polish]|om[polish])"⟩,
  ⟨82, c!"F", c!"", c!"[dgkstvz]", c!"(i|in[polish]|on[polish])"⟩,
  ⟨83, c!"F", c!"", c!"", c!"i"⟩,
  ⟨85, c!"P", c!"", c!"", c!"(o|u)"⟩,
  ⟨87, c!"I", c!"[aeiouAEIBFOUQY]", c!"", c!"i"⟩,
  ⟨88, c!"I", c!"", c!"[^aeiouAEBFIOU]e", c!"(Q[german]|i|D[english])"⟩,
  ⟨89, c!"I", c!"", c!"$", c!"i"⟩,
  ⟨90, c!"I", c!"", c!"[^k]$", c!"i"⟩,
  ⟨91, c!"Ik", c!"[lr]", c!"$", c!"(ik|Qk[german])"⟩,
  ⟨92, c!"Ik", c!"", c!"$", c!"ik"⟩,
  ⟨93, c!"sIts", c!"", c!"$", c!"(sits|sQts[german])"⟩,
  ⟨94, c!"Its", c!"", c!"$", c!"its"⟩,
  ⟨95, c!"I", c!"", c!"", c!"(Q[german]|i)"⟩,
  ⟨97, c!"lE", c!"[bdfgkmnprsStvzZ]", c!"$", c!"(li|il[english])"⟩,
  ⟨98, c!"lE", c!"[bdfgkmnprsStvzZ]", c!"", c!"(li|il[english]|lY[german])"⟩]

/-- Rules of `rules/bm/ash_approx_any.txt`, part 2. -/
def ashApproxAnyLines2 : List EmbeddedLine := [
  ⟨100, c!"au", c!"", c!"", c!"(D|a|u)"⟩,
  ⟨101, c!"ou", c!"", c!"", c!"(D|o|u)"⟩,
  ⟨103, c!"ai", c!"", c!"", c!"(D|a|i)"⟩,
  ⟨104, c!"Ai", c!"", c!"", c!"(D|a|i)"⟩,
  ⟨105, c!"oi", c!"", c!"", c!"(D|o|i)"⟩,
  ⟨106, c!"Oi", c!"", c!"", c!"(D|o|i)"⟩,
  ⟨107, c!"ui", c!"", c!"", c!"(D|u|i)"⟩,
  ⟨108, c!"Ui", c!"", c!"", c!"(D|u|i)"⟩,
  ⟨109, c!"ei", c!"", c!"", c!"(D|i)"⟩,
  ⟨110, c!"Ei", c!"", c!"", c!"(D|i)"⟩,
  ⟨112, c!"iA", c!"", c!"$", c!"(ia|io)"⟩,
  ⟨113, c!"iA", c!"", c!"", c!"(ia|io|iY[german])"⟩,
  ⟨114, c!"A", c!"", c!"[^aeiouAEBFIOU]e", c!"(a|o|Y[german]|D[english])"⟩,
  ⟨116, c!"E", c!"i[^aeiouAEIOU]", c!"", c!"(i|Y[german]|[english])"⟩,
  ⟨117, c!"E", c!"a[^aeiouAEIOU]", c!"", c!"(i|Y[german]|[english])"⟩,
  ⟨119, c!"e", c!"", c!"[fklmnprstv]$", c!"i"⟩,
  ⟨120, c!"e", c!"", c!"ts$", c!"i"⟩,
  ⟨121, c!"e", c!"", c!"$", c!"i"⟩,
  ⟨122, c!"e", c!"[DaoiuAOIUQY]", c!"", c!"i"⟩,
  ⟨123, c!"e", c!"", c!"[aoAOQY]", c!"i"⟩,
  ⟨124, c!"e", c!"", c!"", c!"(i|Y[german])"⟩,
  ⟨126, c!"E", c!"", c!"[fklmnprst]$", c!"i"⟩,
  ⟨127, c!"E", c!"", c!"ts$", c!"i"⟩,
  ⟨128, c!"E", c!"", c!"$", c!"i"⟩,
  ⟨129, c!"E", c!"[DaoiuAOIUQY]", c!"", c!"i"⟩,
  ⟨130, c!"E", c!"", c!"[aoAOQY]", c!"i"⟩,
  ⟨131, c!"E", c!"", c!"", c!"(i|Y[german])"⟩,
  ⟨133, c!"a", c!"", c!"", c!"(a|o)"⟩,
  ⟨135, c!"O", c!"", c!"[fklmnprstv]$", c!"o"⟩,
  ⟨136, c!"O", c!"", c!"ts$", c!"o"⟩,
  ⟨137, c!"O", c!"", c!"$", c!"o"⟩,
  ⟨138, c!"O", c!"[oeiuQY]", c!"", c!"o"⟩,
  ⟨139, c!"O", c!"", c!"", c!"(o|Y[german])"⟩,
  ⟨141, c!"A", c!"", c!"[fklmnprst]$", c!"(a|o)"⟩,
  ⟨142, c!"A", c!"", c!"ts$", c!"(a|o)"⟩,
  ⟨143, c!"A", c!"", c!"$", c!"(a|o)"⟩,
  ⟨144, c!"A", c!"[oeiuQY]", c!"", c!"(a|o)"⟩,
  ⟨145, c!"A", c!"", c!"", c!"(a|o|Y[german])"⟩,
  ⟨147, c!"U", c!"", c!"$", c!"u"⟩,
  ⟨148, c!"U", c!"[DoiuQY]", c!"", c!"u"⟩,
  ⟨149, c!"U", c!"", c!"[^k]$", c!"u"⟩,
  ⟨150, c!"Uk", c!"[lr]", c!"$", c!"(uk|Qk[german])"⟩,
  ⟨151, c!"Uk", c!"", c!"$", c!"uk"⟩,
  ⟨153, c!"sUts", c!"", c!"$", c!"(suts|sQts[german])"⟩,
  ⟨154, c!"Uts", c!"", c!"$", c!"uts"⟩,
  ⟨155, c!"U", c!"", c!"", c!"(u|Q[german])"⟩]

/-- The rules of `rules/bm/ash_approx_any.txt`. -/
def ashApproxAnyLines : List EmbeddedLine :=
  ashApproxAnyLines1 ++ ashApproxAnyLines2

/-- Rules of `rules/bm/ash_approx_common.txt`, part 1. -/
def ashApproxCommonLines1 : List EmbeddedLine := [
  ⟨21, c!"n", c!"", c!"[bp]", c!"m"⟩,
  ⟨24, c!"h", c!"", c!"", c!""⟩,
  ⟨25, c!"H", c!"", c!"", c!"(x|)"⟩,
  ⟨28, c!"F", c!"", c!"[bdgkpstvzZ]h", c!"e"⟩,
  ⟨29, c!"F", c!"", c!"[bdgkpstvzZ]x", c!"e"⟩,
  ⟨30, c!"B", c!"", c!"[bdgkpstvzZ]h", c!"a"⟩,
  ⟨31, c!"B", c!"", c!"[bdgkpstvzZ]x", c!"a"⟩,
  ⟨34, c!"e", c!"[bdfgklmnprsStvzZ]", c!"[ln]$", c!""⟩,
  ⟨35, c!"i", c!"[bdfgklmnprsStvzZ]", c!"[ln]$", c!""⟩,
  ⟨36, c!"E", c!"[bdfgklmnprsStvzZ]", c!"[ln]$", c!""⟩,
  ⟨37, c!"I", c!"[bdfgklmnprsStvzZ]", c!"[ln]$", c!""⟩,
  ⟨38, c!"F", c!"[bdfgklmnprsStvzZ]", c!"[ln]$", c!""⟩,
  ⟨39, c!"Q", c!"[bdfgklmnprsStvzZ]", c!"[ln]$", c!""⟩,
  ⟨40, c!"Y", c!"[bdfgklmnprsStvzZ]", c!"[ln]$", c!""⟩,
  ⟨42, c!"e", c!"[bdfgklmnprsStvzZ]", c!"[ln][bdfgklmnprsStvzZ]", c!""⟩,
  ⟨43, c!"i", c!"[bdfgklmnprsStvzZ]", c!"[ln][bdfgklmnprsStvzZ]", c!""⟩,
  ⟨44, c!"E", c!"[bdfgklmnprsStvzZ]", c!"[ln][bdfgklmnprsStvzZ]", c!""⟩,
  ⟨45, c!"I", c!"[bdfgklmnprsStvzZ]", c!"[ln][bdfgklmnprsStvzZ]", c!""⟩,
  ⟨46, c!"F", c!"[bdfgklmnprsStvzZ]", c!"[ln][bdfgklmnprsStvzZ]", c!""⟩,
  ⟨47, c!"Q", c!"[bdfgklmnprsStvzZ]", c!"[ln][bdfgklmnprsStvzZ]", c!""⟩,
  ⟨48, c!"Y", c!"[bdfgklmnprsStvzZ]", c!"[ln][bdfgklmnprsStvzZ]", c!""⟩,
  ⟨50, c!"lEs", c!"", c!"", c!"(lEs|lz)"⟩,
  ⟨51, c!"lE", c!"[bdfgkmnprStvzZ]", c!"", c!"(lE|l)"⟩,
  ⟨54, c!"aue", c!"", c!"", c!"D"⟩,
  ⟨55, c!"oue", c!"", c!"", c!"D"⟩,
  ⟨57, c!"AvE", c!"", c!"", c!"(D|AvE)"⟩,
  ⟨58, c!"Ave", c!"", c!"", c!"(D|Ave)"⟩,
  ⟨59, c!"avE", c!"", c!"", c!"(D|avE)"⟩,
  ⟨60, c!"ave", c!"", c!"", c!"(D|ave)"⟩,
  ⟨62, c!"OvE", c!"", c!"", c!"(D|OvE)"⟩,
  ⟨63, c!"Ove", c!"", c!"", c!"(D|Ove)"⟩,
  ⟨64, c!"ovE", c!"", c!"", c!"(D|ovE)"⟩,
  ⟨65, c!"ove", c!"", c!"", c!"(D|ove)"⟩,
  ⟨67, c!"ea", c!"", c!"", c!"(D|ea)"⟩,
  ⟨68, c!"EA", c!"", c!"", c!"(D|EA)"⟩,
  ⟨69, c!"Ea", c!"", c!"", c!"(D|Ea)"⟩,
  ⟨70, c!"eA", c!"", c!"", c!"(D|eA)"⟩,
  ⟨72, c!"aji", c!"", c!"", c!"D"⟩,
  ⟨73, c!"ajI", c!"", c!"", c!"D"⟩,
  ⟨74, c!"aje", c!"", c!"", c!"D"⟩,
  ⟨75, c!"ajE", c!"", c!"", c!"D"⟩,
  ⟨77, c!"Aji", c!"", c!"", c!"D"⟩,
  ⟨78, c!"AjI", c!"", c!"", c!"D"⟩,
  ⟨79, c!"Aje", c!"", c!"", c!"D"⟩,
  ⟨80, c!"AjE", c!"", c!"", c!"D"⟩,
  ⟨82, c!"oji", c!"", c!"", c!"D"⟩,
  ⟨83, c!"ojI", c!"", c!"", c!"D"⟩,
  ⟨84, c!"oje", c!"", c!"", c!"D"⟩,
  ⟨85, c!"ojE", c!"", c!"", c!"D"⟩,
  ⟨87, c!"Oji", c!"", c!"", c!"D"⟩,
  ⟨88, c!"OjI", c!"", c!"", c!"D"⟩,
  ⟨89, c!"Oje", c!"", c!"", c!"D"⟩,
  ⟨90, c!"OjE", c!"", c!"", c!"D"⟩,
  ⟨92, c!"eji", c!"", c!"", c!"D"⟩,
  ⟨93, c!"ejI", c!"", c!"", c!"D"⟩,
  ⟨94, c!"eje", c!"", c!"", c!"D"⟩,
  ⟨95, c!"ejE", c!"", c!"", c!"D"⟩,
  ⟨97, c!"Eji", c!"", c!"", c!"D"⟩,
  ⟨98, c!"EjI", c!"", c!"", c!"D"⟩,
  ⟨99, c!"Eje", c!"", c!"", c!"D"⟩]

/-- Rules of `rules/bm/ash_approx_common.txt`, part 2. -/
def ashApproxCommonLines2 : List EmbeddedLine := [
  ⟨100, c!"EjE", c!"", c!"", c!"D"⟩,
  ⟨102, c!"uji", c!"", c!"", c!"D"⟩,
  ⟨103, c!"ujI", c!"", c!"", c!"D"⟩,
  ⟨104, c!"uje", c!"", c!"", c!"D"⟩,
  ⟨105, c!"ujE", c!"", c!"", c!"D"⟩,
  ⟨107, c!"Uji", c!"", c!"", c!"D"⟩,
  ⟨108, c!"UjI", c!"", c!"", c!"D"⟩,
  ⟨109, c!"Uje", c!"", c!"", c!"D"⟩,
  ⟨110, c!"UjE", c!"", c!"", c!"D"⟩,
  ⟨112, c!"iji", c!"", c!"", c!"D"⟩,
  ⟨113, c!"ijI", c!"", c!"", c!"D"⟩,
  ⟨114, c!"ije", c!"", c!"", c!"D"⟩,
  ⟨115, c!"ijE", c!"", c!"", c!"D"⟩,
  ⟨117, c!"Iji", c!"", c!"", c!"D"⟩,
  ⟨118, c!"IjI", c!"", c!"", c!"D"⟩,
  ⟨119, c!"Ije", c!"", c!"", c!"D"⟩,
  ⟨120, c!"IjE", c!"", c!"", c!"D"⟩,
  ⟨122, c!"aja", c!"", c!"", c!"D"⟩,
  ⟨123, c!"ajA", c!"", c!"", c!"D"⟩,
  ⟨124, c!"ajo", c!"", c!"", c!"D"⟩,
  ⟨125, c!"ajO", c!"", c!"", c!"D"⟩,
  ⟨126, c!"aju", c!"", c!"", c!"D"⟩,
  ⟨127, c!"ajU", c!"", c!"", c!"D"⟩,
  ⟨129, c!"Aja", c!"", c!"", c!"D"⟩,
  ⟨130, c!"AjA", c!"", c!"", c!"D"⟩,
  ⟨131, c!"Ajo", c!"", c!"", c!"D"⟩,
  ⟨132, c!"AjO", c!"", c!"", c!"D"⟩,
  ⟨133, c!"Aju", c!"", c!"", c!"D"⟩,
  ⟨134, c!"AjU", c!"", c!"", c!"D"⟩,
  ⟨136, c!"oja", c!"", c!"", c!"D"⟩,
  ⟨137, c!"ojA", c!"", c!"", c!"D"⟩,
  ⟨138, c!"ojo", c!"", c!"", c!"D"⟩,
  ⟨139, c!"ojO", c!"", c!"", c!"D"⟩,
  ⟨140, c!"Aju", c!"", c!"", c!"D"⟩,
  ⟨141, c!"AjU", c!"", c!"", c!"D"⟩,
  ⟨143, c!"Oja", c!"", c!"", c!"D"⟩,
  ⟨144, c!"OjA", c!"", c!"", c!"D"⟩,
  ⟨145, c!"Ojo", c!"", c!"", c!"D"⟩,
  ⟨146, c!"OjO", c!"", c!"", c!"D"⟩,
  ⟨147, c!"Aju", c!"", c!"", c!"D"⟩,
  ⟨148, c!"AjU", c!"", c!"", c!"D"⟩,
  ⟨150, c!"eja", c!"", c!"", c!"D"⟩,
  ⟨151, c!"ejA", c!"", c!"", c!"D"⟩,
  ⟨152, c!"ejo", c!"", c!"", c!"D"⟩,
  ⟨153, c!"ejO", c!"", c!"", c!"D"⟩,
  ⟨154, c!"Aju", c!"", c!"", c!"D"⟩,
  ⟨155, c!"AjU", c!"", c!"", c!"D"⟩,
  ⟨157, c!"Eja", c!"", c!"", c!"D"⟩,
  ⟨158, c!"EjA", c!"", c!"", c!"D"⟩,
  ⟨159, c!"Ejo", c!"", c!"", c!"D"⟩,
  ⟨160, c!"EjO", c!"", c!"", c!"D"⟩,
  ⟨161, c!"Aju", c!"", c!"", c!"D"⟩,
  ⟨162, c!"AjU", c!"", c!"", c!"D"⟩,
  ⟨164, c!"uja", c!"", c!"", c!"D"⟩,
  ⟨165, c!"ujA", c!"", c!"", c!"D"⟩,
  ⟨166, c!"ujo", c!"", c!"", c!"D"⟩,
  ⟨167, c!"ujO", c!"", c!"", c!"D"⟩,
  ⟨168, c!"Aju", c!"", c!"", c!"D"⟩,
  ⟨169, c!"AjU", c!"", c!"", c!"D"⟩,
  ⟨171, c!"Uja", c!"", c!"", c!"D"⟩]

/-- Rules of `rules/bm/ash_approx_common.txt`, part 3. -/
def ashApproxCommonLines3 : List EmbeddedLine := [
  ⟨172, c!"UjA", c!"", c!"", c!"D"⟩,
  ⟨173, c!"Ujo", c!"", c!"", c!"D"⟩,
  ⟨174, c!"UjO", c!"", c!"", c!"D"⟩,
  ⟨175, c!"Aju", c!"", c!"", c!"D"⟩,
  ⟨176, c!"AjU", c!"", c!"", c!"D"⟩,
  ⟨178, c!"ija", c!"", c!"", c!"D"⟩,
  ⟨179, c!"ijA", c!"", c!"", c!"D"⟩,
  ⟨180, c!"ijo", c!"", c!"", c!"D"⟩,
  ⟨181, c!"ijO", c!"", c!"", c!"D"⟩,
  ⟨182, c!"Aju", c!"", c!"", c!"D"⟩,
  ⟨183, c!"AjU", c!"", c!"", c!"D"⟩,
  ⟨185, c!"Ija", c!"", c!"", c!"D"⟩,
  ⟨186, c!"IjA", c!"", c!"", c!"D"⟩,
  ⟨187, c!"Ijo", c!"", c!"", c!"D"⟩,
  ⟨188, c!"IjO", c!"", c!"", c!"D"⟩,
  ⟨189, c!"Aju", c!"", c!"", c!"D"⟩,
  ⟨190, c!"AjU", c!"", c!"", c!"D"⟩,
  ⟨192, c!"j", c!"", c!"", c!"i"⟩,
  ⟨195, c!"lYndEr", c!"", c!"$", c!"lYnder"⟩,
  ⟨196, c!"lander", c!"", c!"$", c!"lYnder"⟩,
  ⟨197, c!"lAndEr", c!"", c!"$", c!"lYnder"⟩,
  ⟨198, c!"lAnder", c!"", c!"$", c!"lYnder"⟩,
  ⟨199, c!"landEr", c!"", c!"$", c!"lYnder"⟩,
  ⟨200, c!"lender", c!"", c!"$", c!"lYnder"⟩,
  ⟨201, c!"lEndEr", c!"", c!"$", c!"lYnder"⟩,
  ⟨202, c!"lendEr", c!"", c!"$", c!"lYnder"⟩,
  ⟨203, c!"lEnder", c!"", c!"$", c!"lYnder"⟩,
  ⟨206, c!"bUrk", c!"", c!"$", c!"(burk|berk)"⟩,
  ⟨207, c!"burk", c!"", c!"$", c!"(burk|berk)"⟩,
  ⟨208, c!"bUrg", c!"", c!"$", c!"(burk|berk)"⟩,
  ⟨209, c!"burg", c!"", c!"$", c!"(burk|berk)"⟩,
  ⟨212, c!"s", c!"", c!"[rmnl]", c!"z"⟩,
  ⟨213, c!"S", c!"", c!"[rmnl]", c!"z"⟩,
  ⟨214, c!"s", c!"[rmnl]", c!"", c!"z"⟩,
  ⟨215, c!"S", c!"[rmnl]", c!"", c!"z"⟩,
  ⟨217, c!"dS", c!"", c!"$", c!"S"⟩,
  ⟨218, c!"dZ", c!"", c!"$", c!"S"⟩,
  ⟨219, c!"Z", c!"", c!"$", c!"S"⟩,
  ⟨220, c!"S", c!"", c!"$", c!"(S|s)"⟩,
  ⟨221, c!"z", c!"", c!"$", c!"(S|s)"⟩,
  ⟨223, c!"S", c!"", c!"", c!"s"⟩,
  ⟨224, c!"dZ", c!"", c!"", c!"z"⟩,
  ⟨225, c!"Z", c!"", c!"", c!"z"⟩]

/-- The rules of `rules/bm/ash_approx_common.txt`. -/
def ashApproxCommonLines : List EmbeddedLine :=
  ashApproxCommonLines1 ++ ashApproxCommonLines2 ++ ashApproxCommonLines3

/-- The rules of `rules/bm/ash_exact_any.txt`. -/
def ashExactAnyLines : List EmbeddedLine := [
  ⟨41, c!"A", c!"", c!"", c!"a"⟩,
  ⟨42, c!"B", c!"", c!"", c!"a"⟩,
  ⟨44, c!"E", c!"", c!"", c!"e"⟩,
  ⟨45, c!"F", c!"", c!"", c!"e"⟩,
  ⟨47, c!"I", c!"", c!"", c!"i"⟩,
  ⟨48, c!"O", c!"", c!"", c!"o"⟩,
  ⟨49, c!"P", c!"", c!"", c!"o"⟩,
  ⟨50, c!"U", c!"", c!"", c!"u"⟩,
  ⟨52, c!"J", c!"", c!"", c!"l"⟩]

/-- The rules of `rules/bm/ash_exact_approx_common.txt`. -/
def ashExactApproxCommonLines : List EmbeddedLine := [
  ⟨20, c!"h", c!"", c!"$", c!""⟩,
  ⟨22, c!"b", c!"", c!"[fktSs]", c!"p"⟩,
  ⟨23, c!"b", c!"", c!"p", c!""⟩,
  ⟨24, c!"b", c!"", c!"$", c!"p"⟩,
  ⟨25, c!"p", c!"", c!"[gdZz]", c!"b"⟩,
  ⟨26, c!"p", c!"", c!"b", c!""⟩,
  ⟨28, c!"v", c!"", c!"[pktSs]", c!"f"⟩,
  ⟨29, c!"v", c!"", c!"f", c!""⟩,
  ⟨30, c!"v", c!"", c!"$", c!"f"⟩,
  ⟨31, c!"f", c!"", c!"[bgdZz]", c!"v"⟩,
  ⟨32, c!"f", c!"", c!"v", c!""⟩,
  ⟨34, c!"g", c!"", c!"[pftSs]", c!"k"⟩,
  ⟨35, c!"g", c!"", c!"k", c!""⟩,
  ⟨36, c!"g", c!"", c!"$", c!"k"⟩,
  ⟨37, c!"k", c!"", c!"[bdZz]", c!"g"⟩,
  ⟨38, c!"k", c!"", c!"g", c!""⟩,
  ⟨40, c!"d", c!"", c!"[pfkSs]", c!"t"⟩,
  ⟨41, c!"d", c!"", c!"t", c!""⟩,
  ⟨42, c!"d", c!"", c!"$", c!"t"⟩,
  ⟨43, c!"t", c!"", c!"[bgZz]", c!"d"⟩,
  ⟨44, c!"t", c!"", c!"d", c!""⟩,
  ⟨46, c!"s", c!"", c!"dZ", c!""⟩,
  ⟨47, c!"s", c!"", c!"tS", c!""⟩,
  ⟨49, c!"z", c!"", c!"[pfkSt]", c!"s"⟩,
  ⟨50, c!"z", c!"", c!"[sSzZ]", c!""⟩,
  ⟨51, c!"s", c!"", c!"[sSzZ]", c!""⟩,
  ⟨52, c!"Z", c!"", c!"[sSzZ]", c!""⟩,
  ⟨53, c!"S", c!"", c!"[sSzZ]", c!""⟩,
  ⟨57, c!"jnm", c!"", c!"", c!"jm"⟩,
  ⟨61, c!"ji", c!"^", c!"", c!"i"⟩,
  ⟨62, c!"jI", c!"^", c!"", c!"I"⟩,
  ⟨64, c!"a", c!"", c!"[aAB]", c!""⟩,
  ⟨65, c!"a", c!"[AB]", c!"", c!""⟩,
  ⟨66, c!"A", c!"", c!"A", c!""⟩,
  ⟨67, c!"B", c!"", c!"B", c!""⟩,
  ⟨69, c!"b", c!"", c!"b", c!""⟩,
  ⟨70, c!"d", c!"", c!"d", c!""⟩,
  ⟨71, c!"f", c!"", c!"f", c!""⟩,
  ⟨72, c!"g", c!"", c!"g", c!""⟩,
  ⟨73, c!"k", c!"", c!"k", c!""⟩,
  ⟨74, c!"l", c!"", c!"l", c!""⟩,
  ⟨75, c!"m", c!"", c!"m", c!""⟩,
  ⟨76, c!"n", c!"", c!"n", c!""⟩,
  ⟨77, c!"p", c!"", c!"p", c!""⟩,
  ⟨78, c!"r", c!"", c!"r", c!""⟩,
  ⟨79, c!"t", c!"", c!"t", c!""⟩,
  ⟨80, c!"v", c!"", c!"v", c!""⟩,
  ⟨81, c!"z", c!"", c!"z", c!""⟩]

/-- The rules of `rules/bm/ash_exact_common.txt`. -/
def ashExactCommonLines : List EmbeddedLine := [
  ⟨20, c!"H", c!"", c!"", c!"h"⟩,
  ⟨24, c!"s", c!"[^t]", c!"[bgZd]", c!"z"⟩,
  ⟨25, c!"Z", c!"", c!"[pfkst]", c!"S"⟩,
  ⟨26, c!"Z", c!"", c!"$", c!"S"⟩,
  ⟨27, c!"S", c!"", c!"[bgzd]", c!"Z"⟩,
  ⟨28, c!"z", c!"", c!"$", c!"s"⟩,
  ⟨30, c!"ji", c!"[aAoOeEiIuU]", c!"", c!"j"⟩,
  ⟨31, c!"jI", c!"[aAoOeEiIuU]", c!"", c!"j"⟩,
  ⟨32, c!"je", c!"[aAoOeEiIuU]", c!"", c!"j"⟩,
  ⟨33, c!"jE", c!"[aAoOeEiIuU]", c!"", c!"j"⟩]

/-- Rules of `rules/bm/ash_rules_any.txt`, part 1. -/
def ashRulesAnyLines1 : List EmbeddedLine := [
  ⟨21, c!"yna", c!"", c!"$", c!"(in[russian]|ina)"⟩,
  ⟨22, c!"ina", c!"", c!"$", c!"(in[russian]|ina)"⟩,
  ⟨23, c!"liova", c!"", c!"$", c!"(lof[russian]|lef[russian]|lova)"⟩,
  ⟨24, c!"lova", c!"", c!"$", c!"(lof[russian]|lef[russian]|lova)"⟩,
  ⟨25, c!"ova", c!"", c!"$", c!"(of[russian]|ova)"⟩,
  ⟨26, c!"eva", c!"", c!"$", c!"(ef[russian]|eva)"⟩,
  ⟨27, c!"aia", c!"", c!"$", c!"(aja|i[russian])"⟩,
  ⟨28, c!"aja", c!"", c!"$", c!"(aja|i[russian])"⟩,
  ⟨29, c!"aya", c!"", c!"$", c!"(aja|i[russian])"⟩,
  ⟨31, c!"lowa", c!"", c!"$", c!"(lova|lof[polish]|l[polish]|el[polish])"⟩,
  ⟨32, c!"kowa", c!"", c!"$", c!"(kova|kof[polish]|k[polish]|ek[polish])"⟩,
  ⟨33, c!"owa", c!"", c!"$", c!"(ova|of[polish]|)"⟩,
  ⟨34, c!"lowna", c!"", c!"$", c!"(lovna|levna|l[polish]|el[polish])"⟩,
  ⟨35, c!"kowna", c!"", c!"$", c!"(kovna|k[polish]|ek[polish])"⟩,
  ⟨36, c!"owna", c!"", c!"$", c!"(ovna|[polish])"⟩,
  ⟨37, c!"lówna", c!"", c!"$", c!"(l|el[polish])"⟩,
  ⟨38, c!"kówna", c!"", c!"$", c!"(k|ek[polish])"⟩,
  ⟨39, c!"ówna", c!"", c!"$", c!""⟩,
  ⟨41, c!"a", c!"", c!"$", c!"(a|i[polish])"⟩,
  ⟨45, c!"rh", c!"^", c!"", c!"r"⟩,
  ⟨46, c!"ssch", c!"", c!"", c!"S"⟩,
  ⟨47, c!"chsch", c!"", c!"", c!"xS"⟩,
  ⟨48, c!"tsch", c!"", c!"", c!"tS"⟩,
  ⟨50, c!"sch", c!"", c!"[ei]", c!"(sk[romanian]|S|StS[russian])"⟩,
  ⟨51, c!"sch", c!"", c!"", c!"(S|StS[russian])"⟩,
  ⟨53, c!"ssh", c!"", c!"", c!"S"⟩,
  ⟨55, c!"sh", c!"", c!"[äöü]", c!"sh"⟩,
  ⟨56, c!"sh", c!"", c!"[aeiou]", c!"(S[russian+english]|sh)"⟩,
  ⟨57, c!"sh", c!"", c!"", c!"S"⟩,
  ⟨59, c!"kh", c!"", c!"", c!"(x[russian+english]|kh)"⟩,
  ⟨61, c!"chs", c!"", c!"", c!"(ks[german]|xs|tSs[russian+english])"⟩,
  ⟨67, c!"ch", c!"", c!"[ei]", c!"(x|k[romanian]|tS[russian+english])"⟩,
  ⟨68, c!"ch", c!"", c!"", c!"(x|tS[russian+english])"⟩,
  ⟨70, c!"ck", c!"", c!"", c!"(k|tsk[polish])"⟩,
  ⟨72, c!"czy", c!"", c!"", c!"tSi"⟩,
  ⟨73, c!"cze", c!"", c!"[bcdgkpstwzż]", c!"(tSe|tSF)"⟩,
  ⟨74, c!"ciewicz", c!"", c!"", c!"(tsevitS|tSevitS)"⟩,
  ⟨75, c!"siewicz", c!"", c!"", c!"(sevitS|SevitS)"⟩,
  ⟨76, c!"ziewicz", c!"", c!"", c!"(zevitS|ZevitS)"⟩,
  ⟨77, c!"riewicz", c!"", c!"", c!"rjevitS"⟩,
  ⟨78, c!"diewicz", c!"", c!"", c!"djevitS"⟩,
  ⟨79, c!"tiewicz", c!"", c!"", c!"tjevitS"⟩,
  ⟨80, c!"iewicz", c!"", c!"", c!"evitS"⟩,
  ⟨81, c!"ewicz", c!"", c!"", c!"evitS"⟩,
  ⟨82, c!"owicz", c!"", c!"", c!"ovitS"⟩,
  ⟨83, c!"icz", c!"", c!"", c!"itS"⟩,
  ⟨84, c!"cz", c!"", c!"", c!"tS"⟩,
  ⟨86, c!"cia", c!"", c!"[bcdgkpstwzż]", c!"(tSB[polish]|tsB)"⟩,
  ⟨87, c!"cia", c!"", c!"", c!"(tSa[polish]|tsa)"⟩,
  ⟨88, c!"cią", c!"", c!"[bp]", c!"(tSom[polish]|tsom)"⟩,
  ⟨89, c!"cią", c!"", c!"", c!"(tSon[polish]|tson)"⟩,
  ⟨90, c!"cię", c!"", c!"[bp]", c!"(tSem[polish]|tsem)"⟩,
  ⟨91, c!"cię", c!"", c!"", c!"(tSen[polish]|tsen)"⟩,
  ⟨92, c!"cie", c!"", c!"[bcdgkpstwzż]", c!"(tSF[polish]|tsF)"⟩,
  ⟨93, c!"cie", c!"", c!"", c!"(tSe[polish]|tse)"⟩,
  ⟨94, c!"cio", c!"", c!"", c!"(tSo[polish]|tso)"⟩,
  ⟨95, c!"ciu", c!"", c!"", c!"(tSu[polish]|tsu)"⟩,
  ⟨97, c!"ci", c!"", c!"$", c!"(tsi[polish]|tSi[polish+romanian]|tS[romanian]|si)"⟩,
  ⟨98, c!"ci", c!"", c!"", c!"(tsi[polish]|tSi[polish+romanian]|si)"⟩,
  ⟨99, c!"ce", c!"", c!"[bcdgkpstwzż]", c!"(tsF[polish]|tSe[polish+romanian]|se)"⟩]

/-- Rules of `rules/bm/ash_rules_any.txt`, part 2. -/
def ashRulesAnyLines2 : List EmbeddedLine := [
  ⟨100, c!"ce", c!"", c!"", c!"(tSe[polish+romanian]|tse[polish]|se)"⟩,
  ⟨101, c!"cy", c!"", c!"", c!"(si|tsi[polish])"⟩,
  ⟨103, c!"ssz", c!"", c!"", c!"S"⟩,
  ⟨104, c!"sz", c!"", c!"", c!"S"⟩,
  ⟨106, c!"ssp", c!"", c!"", c!"(Sp[german]|sp)"⟩,
  ⟨107, c!"sp", c!"", c!"", c!"(Sp[german]|sp)"⟩,
  ⟨108, c!"sst", c!"", c!"", c!"(St[german]|st)"⟩,
  ⟨109, c!"st", c!"", c!"", c!"(St[german]|st)"⟩,
  ⟨110, c!"ss", c!"", c!"", c!"s"⟩,
  ⟨112, c!"sia", c!"", c!"[bcdgkpstwzż]", c!"(SB[polish]|sB[polish]|sja)"⟩,
  ⟨113, c!"sia", c!"", c!"", c!"(Sa[polish]|sja)"⟩,
  ⟨114, c!"sią", c!"", c!"[bp]", c!"(Som[polish]|som)"⟩,
  ⟨115, c!"sią", c!"", c!"", c!"(Son[polish]|son)"⟩,
  ⟨116, c!"się", c!"", c!"[bp]", c!"(Sem[polish]|sem)"⟩,
  ⟨117, c!"się", c!"", c!"", c!"(Sen[polish]|sen)"⟩,
  ⟨118, c!"sie", c!"", c!"[bcdgkpstwzż]", c!"(SF[polish]|sF|zi[german])"⟩,
  ⟨119, c!"sie", c!"", c!"", c!"(se|Se[polish]|zi[german])"⟩,
  ⟨120, c!"sio", c!"", c!"", c!"(So[polish]|so)"⟩,
  ⟨121, c!"siu", c!"", c!"", c!"(Su[polish]|sju)"⟩,
  ⟨122, c!"si", c!"", c!"", c!"(Si[polish]|si|zi[german])"⟩,
  ⟨123, c!"s", c!"", c!"[aeiouäöë]", c!"(s|z[german])"⟩,
  ⟨125, c!"gue", c!"", c!"", c!"ge"⟩,
  ⟨126, c!"gui", c!"", c!"", c!"gi"⟩,
  ⟨127, c!"guy", c!"", c!"", c!"gi"⟩,
  ⟨128, c!"gh", c!"", c!"[ei]", c!"(g[romanian]|gh)"⟩,
  ⟨130, c!"gauz", c!"", c!"$", c!"haus"⟩,
  ⟨131, c!"gaus", c!"", c!"$", c!"haus"⟩,
  ⟨132, c!"gol'ts", c!"", c!"$", c!"holts"⟩,
  ⟨133, c!"golts", c!"", c!"$", c!"holts"⟩,
  ⟨134, c!"gol'tz", c!"", c!"$", c!"holts"⟩,
  ⟨135, c!"goltz", c!"", c!"", c!"holts"⟩,
  ⟨136, c!"gol'ts", c!"^", c!"", c!"holts"⟩,
  ⟨137, c!"golts", c!"^", c!"", c!"holts"⟩,
  ⟨138, c!"gol'tz", c!"^", c!"", c!"holts"⟩,
  ⟨139, c!"goltz", c!"^", c!"", c!"holts"⟩,
  ⟨140, c!"gendler", c!"", c!"$", c!"hendler"⟩,
  ⟨141, c!"gejmer", c!"", c!"$", c!"hajmer"⟩,
  ⟨142, c!"gejm", c!"", c!"$", c!"hajm"⟩,
  ⟨143, c!"geymer", c!"", c!"$", c!"hajmer"⟩,
  ⟨144, c!"geym", c!"", c!"$", c!"hajm"⟩,
  ⟨145, c!"geimer", c!"", c!"$", c!"hajmer"⟩,
  ⟨146, c!"geim", c!"", c!"$", c!"hajm"⟩,
  ⟨147, c!"gof", c!"", c!"$", c!"hof"⟩,
  ⟨149, c!"ger", c!"", c!"$", c!"ger"⟩,
  ⟨150, c!"gen", c!"", c!"$", c!"gen"⟩,
  ⟨151, c!"gin", c!"", c!"$", c!"gin"⟩,
  ⟨153, c!"gie", c!"", c!"$", c!"(ge|gi[german]|ji[french])"⟩,
  ⟨154, c!"gie", c!"", c!"", c!"ge"⟩,
  ⟨155, c!"ge", c!"[yaeiou]", c!"", c!"(gE|xe[spanish]|dZe[english+romanian])"⟩,
  ⟨156, c!"gi", c!"[yaeiou]", c!"", c!"(gI|xi[spanish]|dZi[english+romanian])"⟩,
  ⟨157, c!"ge", c!"", c!"", c!"(gE|dZe[english+romanian]|hE[russian]|xe[spanish])"⟩,
  ⟨158, c!"gi", c!"", c!"", c!"(gI|dZi[english+romanian]|hI[russian]|xi[spanish])"⟩,
  ⟨159, c!"gy", c!"", c!"[aeouáéóúüöőű]", c!"(gi|dj[hungarian])"⟩,
  ⟨160, c!"gy", c!"", c!"", c!"(gi|d[hungarian])"⟩,
  ⟨161, c!"g", c!"[jyaeiou]", c!"[aouyei]", c!"g"⟩,
  ⟨162, c!"g", c!"", c!"[aouei]", c!"(g|h[russian])"⟩,
  ⟨164, c!"ej", c!"", c!"", c!"(aj|eZ[french+romanian]|ex[spanish])"⟩,
  ⟨165, c!"ej", c!"", c!"", c!"aj"⟩,
  ⟨167, c!"ly", c!"", c!"[au]", c!"l"⟩,
  ⟨168, c!"li", c!"", c!"[au]", c!"l"⟩]

/-- Rules of `rules/bm/ash_rules_any.txt`, part 3. -/
def ashRulesAnyLines3 : List EmbeddedLine := [
  ⟨169, c!"lj", c!"", c!"[au]", c!"l"⟩,
  ⟨170, c!"lio", c!"", c!"", c!"(lo|le[russian])"⟩,
  ⟨171, c!"lyo", c!"", c!"", c!"(lo|le[russian])"⟩,
  ⟨172, c!"ll", c!"", c!"", c!"(l|J[spanish])"⟩,
  ⟨174, c!"j", c!"", c!"[aoeiuy]", c!"(j|dZ[english]|x[spanish]|Z[french+romanian])"⟩,
  ⟨175, c!"j", c!"", c!"", c!"(j|x[spanish])"⟩,
  ⟨177, c!"pf", c!"", c!"", c!"(pf|p|f)"⟩,
  ⟨178, c!"ph", c!"", c!"", c!"(ph|f)"⟩,
  ⟨180, c!"qu", c!"", c!"", c!"(kv[german]|k)"⟩,
  ⟨182, c!"rze", c!"t", c!"", c!"(Se[polish]|re)"⟩,
  ⟨183, c!"rze", c!"", c!"", c!"(rze|rtsE[german]|Ze[polish]|re[polish]|rZe[polish])"⟩,
  ⟨184, c!"rzy", c!"t", c!"", c!"(Si[polish]|ri)"⟩,
  ⟨185, c!"rzy", c!"", c!"", c!"(Zi[polish]|ri[polish]|rZi)"⟩,
  ⟨186, c!"rz", c!"t", c!"", c!"(S[polish]|r)"⟩,
  ⟨187, c!"rz", c!"", c!"", c!"(rz|rts[german]|Z[polish]|r[polish]|rZ[polish])"⟩,
  ⟨189, c!"tz", c!"", c!"$", c!"(ts|tS[english+german])"⟩,
  ⟨190, c!"tz", c!"^", c!"", c!"(ts|tS[english+german])"⟩,
  ⟨191, c!"tz", c!"", c!"", c!"(ts[english+german+russian]|tz)"⟩,
  ⟨193, c!"zh", c!"", c!"", c!"(Z|zh[polish]|tsh[german])"⟩,
  ⟨195, c!"zia", c!"", c!"[bcdgkpstwzż]", c!"(ZB[polish]|zB[polish]|zja)"⟩,
  ⟨196, c!"zia", c!"", c!"", c!"(Za[polish]|zja)"⟩,
  ⟨197, c!"zią", c!"", c!"[bp]", c!"(Zom[polish]|zom)"⟩,
  ⟨198, c!"zią", c!"", c!"", c!"(Zon[polish]|zon)"⟩,
  ⟨199, c!"zię", c!"", c!"[bp]", c!"(Zem[polish]|zem)"⟩,
  ⟨200, c!"zię", c!"", c!"", c!"(Zen[polish]|zen)"⟩,
  ⟨201, c!"zie", c!"", c!"[bcdgkpstwzż]", c!"(ZF[polish]|zF[polish]|ze|tsi[german])"⟩,
  ⟨202, c!"zie", c!"", c!"", c!"(ze|Ze[polish]|tsi[german])"⟩,
  ⟨203, c!"zio", c!"", c!"", c!"(Zo[polish]|zo)"⟩,
  ⟨204, c!"ziu", c!"", c!"", c!"(Zu[polish]|zju)"⟩,
  ⟨205, c!"zi", c!"", c!"", c!"(Zi[polish]|zi|tsi[german])"⟩,
  ⟨207, c!"thal", c!"", c!"$", c!"tal"⟩,
  ⟨208, c!"th", c!"^", c!"", c!"t"⟩,
  ⟨209, c!"th", c!"", c!"[aeiou]", c!"(t[german]|th)"⟩,
  ⟨210, c!"th", c!"", c!"", c!"t"⟩,
  ⟨211, c!"vogel", c!"", c!"", c!"(vogel|fogel[german])"⟩,
  ⟨212, c!"v", c!"^", c!"", c!"(v|f[german])"⟩,
  ⟨214, c!"h", c!"[aeiouyäöü]", c!"", c!""⟩,
  ⟨215, c!"h", c!"", c!"", c!"(h|x[romanian+polish])"⟩,
  ⟨216, c!"h", c!"^", c!"", c!"(h|H[english+german])"⟩,
  ⟨219, c!"yi", c!"^", c!"", c!"i"⟩,
  ⟨222, c!"e", c!"in", c!"$", c!"(e|[french])"⟩,
  ⟨224, c!"ii", c!"", c!"$", c!"i"⟩,
  ⟨225, c!"iy", c!"", c!"$", c!"i"⟩,
  ⟨226, c!"yy", c!"", c!"$", c!"i"⟩,
  ⟨227, c!"yi", c!"", c!"$", c!"i"⟩,
  ⟨228, c!"yj", c!"", c!"$", c!"i"⟩,
  ⟨229, c!"ij", c!"", c!"$", c!"i"⟩,
  ⟨231, c!"aue", c!"", c!"", c!"aue"⟩,
  ⟨232, c!"oue", c!"", c!"", c!"oue"⟩,
  ⟨234, c!"au", c!"", c!"", c!"(au|o[french])"⟩,
  ⟨235, c!"ou", c!"", c!"", c!"(ou|u[french])"⟩,
  ⟨237, c!"ue", c!"", c!"", c!"(Q|uje[russian])"⟩,
  ⟨238, c!"ae", c!"", c!"", c!"(Y[german]|aje[russian]|ae)"⟩,
  ⟨239, c!"oe", c!"", c!"", c!"(Y[german]|oje[russian]|oe)"⟩,
  ⟨240, c!"ee", c!"", c!"", c!"(i[english]|aje[russian]|e)"⟩,
  ⟨242, c!"ei", c!"", c!"", c!"aj"⟩,
  ⟨243, c!"ey", c!"", c!"", c!"aj"⟩,
  ⟨244, c!"eu", c!"", c!"", c!"(aj[german]|oj[german]|eu)"⟩,
  ⟨246, c!"i", c!"[aou]", c!"", c!"j"⟩,
  ⟨247, c!"y", c!"[aou]", c!"", c!"j"⟩]

/-- Rules of `rules/bm/ash_rules_any.txt`, part 4. -/
def ashRulesAnyLines4 : List EmbeddedLine := [
  ⟨249, c!"ie", c!"", c!"[bcdgkpstwzż]", c!"(i[german]|e[polish]|ije[russian]|je)"⟩,
  ⟨250, c!"ie", c!"", c!"", c!"(i[german]|e[polish]|ije[russian]|je)"⟩,
  ⟨251, c!"ye", c!"", c!"", c!"(je|ije[russian])"⟩,
  ⟨253, c!"i", c!"", c!"[au]", c!"j"⟩,
  ⟨254, c!"y", c!"", c!"[au]", c!"j"⟩,
  ⟨255, c!"io", c!"", c!"", c!"(jo|e[russian])"⟩,
  ⟨256, c!"yo", c!"", c!"", c!"(jo|e[russian])"⟩,
  ⟨258, c!"ea", c!"", c!"", c!"(ea|ja[romanian])"⟩,
  ⟨259, c!"e", c!"^", c!"", c!"(e|je[russian])"⟩,
  ⟨260, c!"oo", c!"", c!"", c!"(u[english]|o)"⟩,
  ⟨261, c!"uu", c!"", c!"", c!"u"⟩,
  ⟨264, c!"ć", c!"", c!"", c!"(tS[polish]|ts)"⟩,
  ⟨265, c!"ł", c!"", c!"", c!"l"⟩,
  ⟨266, c!"ń", c!"", c!"", c!"n"⟩,
  ⟨267, c!"ñ", c!"", c!"", c!"(n|nj[spanish])"⟩,
  ⟨268, c!"ś", c!"", c!"", c!"(S[polish]|s)"⟩,
  ⟨269, c!"ş", c!"", c!"", c!"S"⟩,
  ⟨270, c!"ţ", c!"", c!"", c!"ts"⟩,
  ⟨271, c!"ż", c!"", c!"", c!"Z"⟩,
  ⟨272, c!"ź", c!"", c!"", c!"(Z[polish]|z)"⟩,
  ⟨274, c!"où", c!"", c!"", c!"u"⟩,
  ⟨276, c!"ą", c!"", c!"[bp]", c!"om"⟩,
  ⟨277, c!"ą", c!"", c!"", c!"on"⟩,
  ⟨278, c!"ä", c!"", c!"", c!"(Y|e)"⟩,
  ⟨279, c!"á", c!"", c!"", c!"a"⟩,
  ⟨280, c!"ă", c!"", c!"", c!"(e[romanian]|a)"⟩,
  ⟨281, c!"à", c!"", c!"", c!"a"⟩,
  ⟨282, c!"â", c!"", c!"", c!"a"⟩,
  ⟨283, c!"é", c!"", c!"", c!"e"⟩,
  ⟨284, c!"è", c!"", c!"", c!"e"⟩,
  ⟨285, c!"ê", c!"", c!"", c!"e"⟩,
  ⟨286, c!"ę", c!"", c!"[bp]", c!"em"⟩,
  ⟨287, c!"ę", c!"", c!"", c!"en"⟩,
  ⟨288, c!"í", c!"", c!"", c!"i"⟩,
  ⟨289, c!"î", c!"", c!"", c!"i"⟩,
  ⟨290, c!"ö", c!"", c!"", c!"Y"⟩,
  ⟨291, c!"ő", c!"", c!"", c!"Y"⟩,
  ⟨292, c!"ó", c!"", c!"", c!"(u[polish]|o)"⟩,
  ⟨293, c!"ű", c!"", c!"", c!"Q"⟩,
  ⟨294, c!"ü", c!"", c!"", c!"Q"⟩,
  ⟨295, c!"ú", c!"", c!"", c!"u"⟩,
  ⟨296, c!"ű", c!"", c!"", c!"Q"⟩,
  ⟨298, c!"ß", c!"", c!"", c!"s"⟩,
  ⟨299, c!"'", c!"", c!"", c!""⟩,
  ⟨300, c!"\\\"", c!"", c!"", c!""⟩,
  ⟨302, c!"a", c!"", c!"[bcdgkpstwzż]", c!"(A|B[polish])"⟩,
  ⟨303, c!"e", c!"", c!"[bcdgkpstwzż]", c!"(E|F[polish])"⟩,
  ⟨304, c!"o", c!"", c!"[bcćdgklłmnńrsśtwzźż]", c!"(O|P[polish])"⟩,
  ⟨307, c!"a", c!"", c!"", c!"A"⟩,
  ⟨308, c!"b", c!"", c!"", c!"b"⟩,
  ⟨309, c!"c", c!"", c!"", c!"(k|ts[polish])"⟩,
  ⟨310, c!"d", c!"", c!"", c!"d"⟩,
  ⟨311, c!"e", c!"", c!"", c!"E"⟩,
  ⟨312, c!"f", c!"", c!"", c!"f"⟩,
  ⟨313, c!"g", c!"", c!"", c!"g"⟩,
  ⟨314, c!"h", c!"", c!"", c!"h"⟩,
  ⟨315, c!"i", c!"", c!"", c!"I"⟩,
  ⟨316, c!"j", c!"", c!"", c!"j"⟩,
  ⟨317, c!"k", c!"", c!"", c!"k"⟩,
  ⟨318, c!"l", c!"", c!"", c!"l"⟩]

/-- Rules of `rules/bm/ash_rules_any.txt`, part 5. -/
def ashRulesAnyLines5 : List EmbeddedLine := [
  ⟨319, c!"m", c!"", c!"", c!"m"⟩,
  ⟨320, c!"n", c!"", c!"", c!"n"⟩,
  ⟨321, c!"o", c!"", c!"", c!"O"⟩,
  ⟨322, c!"p", c!"", c!"", c!"p"⟩,
  ⟨323, c!"q", c!"", c!"", c!"k"⟩,
  ⟨324, c!"r", c!"", c!"", c!"r"⟩,
  ⟨325, c!"s", c!"", c!"", c!"s"⟩,
  ⟨326, c!"t", c!"", c!"", c!"t"⟩,
  ⟨327, c!"u", c!"", c!"", c!"U"⟩,
  ⟨328, c!"v", c!"", c!"", c!"v"⟩,
  ⟨329, c!"w", c!"", c!"", c!"v"⟩,
  ⟨330, c!"x", c!"", c!"", c!"ks"⟩,
  ⟨331, c!"y", c!"", c!"", c!"i"⟩,
  ⟨332, c!"z", c!"", c!"", c!"(ts[german]|z)"⟩]

/-- The rules of `rules/bm/ash_rules_any.txt`. -/
def ashRulesAnyLines : List EmbeddedLine :=
  ashRulesAnyLines1 ++ ashRulesAnyLines2 ++ ashRulesAnyLines3 ++ ashRulesAnyLines4 ++ ashRulesAnyLines5

/-- Rules of `rules/bm/gen_approx_any.txt`, part 1. -/
def genApproxAnyLines1 : List EmbeddedLine := [
  ⟨28, c!"mb", c!"", c!"", c!"(mb|b[greeklatin])"⟩,
  ⟨29, c!"mp", c!"", c!"", c!"(mp|b[greeklatin])"⟩,
  ⟨30, c!"ng", c!"", c!"", c!"(ng|g[greeklatin])"⟩,
  ⟨32, c!"B", c!"", c!"[fktSs]", c!"(p|f[spanish])"⟩,
  ⟨33, c!"B", c!"", c!"p", c!""⟩,
  ⟨34, c!"B", c!"", c!"$", c!"(p|f[spanish])"⟩,
  ⟨35, c!"V", c!"", c!"[pktSs]", c!"(f|p[spanish])"⟩,
  ⟨36, c!"V", c!"", c!"f", c!""⟩,
  ⟨37, c!"V", c!"", c!"$", c!"(f|p[spanish])"⟩,
  ⟨38, c!"B", c!"", c!"", c!"(b|v[spanish])"⟩,
  ⟨39, c!"V", c!"", c!"", c!"(v|b[spanish])"⟩,
  ⟨42, c!"t", c!"", c!"$", c!"(t|[french])"⟩,
  ⟨43, c!"g", c!"n", c!"$", c!"(g|[french])"⟩,
  ⟨44, c!"k", c!"n", c!"$", c!"(k|[french])"⟩,
  ⟨45, c!"p", c!"", c!"$", c!"(p|[french])"⟩,
  ⟨46, c!"r", c!"[Ee]", c!"$", c!"(r|[french])"⟩,
  ⟨47, c!"s", c!"", c!"$", c!"(s|[french])"⟩,
  ⟨48, c!"t", c!"[aeiouAEIOU]", c!"[^aeiouAEIOU]", c!"(t|[french])"⟩,
  ⟨49, c!"s", c!"[aeiouAEIOU]", c!"[^aeiouAEIOU]", c!"(s|[french])"⟩,
  ⟨52, c!"I", c!"[aeiouAEIBFOUQY]", c!"", c!"i"⟩,
  ⟨53, c!"I", c!"", c!"[^aeiouAEBFIOU]e", c!"(Q[german]|i|D[english])"⟩,
  ⟨54, c!"I", c!"", c!"$", c!"i"⟩,
  ⟨55, c!"I", c!"", c!"[^k]$", c!"i"⟩,
  ⟨56, c!"Ik", c!"[lr]", c!"$", c!"(ik|Qk[german])"⟩,
  ⟨57, c!"Ik", c!"", c!"$", c!"ik"⟩,
  ⟨58, c!"sIts", c!"", c!"$", c!"(sits|sQts[german])"⟩,
  ⟨59, c!"Its", c!"", c!"$", c!"its"⟩,
  ⟨60, c!"I", c!"", c!"", c!"(Q[german]|i)"⟩,
  ⟨62, c!"lEE", c!"[bdfgkmnprsStvzZ]", c!"", c!"(li|il[english])"⟩,
  ⟨63, c!"rEE", c!"[bdfgkmnprsStvzZ]", c!"", c!"(ri|ir[english])"⟩,
  ⟨64, c!"lE", c!"[bdfgkmnprsStvzZ]", c!"", c!"(li|il[english]|lY[german])"⟩,
  ⟨65, c!"rE", c!"[bdfgkmnprsStvzZ]", c!"", c!"(ri|ir[english]|rY[german])"⟩,
  ⟨67, c!"EE", c!"", c!"", c!"(i|)"⟩,
  ⟨68, c!"ea", c!"", c!"", c!"(D|a|i)"⟩,
  ⟨70, c!"au", c!"", c!"", c!"(D|a|u)"⟩,
  ⟨71, c!"ou", c!"", c!"", c!"(D|o|u)"⟩,
  ⟨72, c!"eu", c!"", c!"", c!"(D|e|u)"⟩,
  ⟨74, c!"ai", c!"", c!"", c!"(D|a|i)"⟩,
  ⟨75, c!"Ai", c!"", c!"", c!"(D|a|i)"⟩,
  ⟨76, c!"oi", c!"", c!"", c!"(D|o|i)"⟩,
  ⟨77, c!"Oi", c!"", c!"", c!"(D|o|i)"⟩,
  ⟨78, c!"ui", c!"", c!"", c!"(D|u|i)"⟩,
  ⟨79, c!"Ui", c!"", c!"", c!"(D|u|i)"⟩,
  ⟨80, c!"ei", c!"", c!"", c!"(D|i)"⟩,
  ⟨81, c!"Ei", c!"", c!"", c!"(D|i)"⟩,
  ⟨83, c!"iA", c!"", c!"$", c!"(ia|io)"⟩,
  ⟨84, c!"iA", c!"", c!"", c!"(ia|io|iY[german])"⟩,
  ⟨85, c!"A", c!"", c!"[^aeiouAEBFIOU]e", c!"(a|o|Y[german]|D[english])"⟩,
  ⟨88, c!"E", c!"i[^aeiouAEIOU]", c!"", c!"(i|Y[german]|[english])"⟩,
  ⟨89, c!"E", c!"a[^aeiouAEIOU]", c!"", c!"(i|Y[german]|[english])"⟩,
  ⟨91, c!"E", c!"", c!"[fklmnprst]$", c!"i"⟩,
  ⟨92, c!"E", c!"", c!"ts$", c!"i"⟩,
  ⟨93, c!"E", c!"", c!"$", c!"i"⟩,
  ⟨94, c!"E", c!"[DaoiuAOIUQY]", c!"", c!"i"⟩,
  ⟨95, c!"E", c!"", c!"[aoAOQY]", c!"i"⟩,
  ⟨96, c!"E", c!"", c!"", c!"(i|Y[german])"⟩,
  ⟨98, c!"P", c!"", c!"", c!"(o|u)"⟩,
  ⟨100, c!"O", c!"", c!"[fklmnprstv]$", c!"o"⟩,
  ⟨101, c!"O", c!"", c!"ts$", c!"o"⟩,
  ⟨102, c!"O", c!"", c!"$", c!"o"⟩]

/-- Rules of `rules/bm/gen_approx_any.txt`, part 2. -/
def genApproxAnyLines2 : List EmbeddedLine := [
  ⟨103, c!"O", c!"[oeiuQY]", c!"", c!"o"⟩,
  ⟨104, c!"O", c!"", c!"", c!"(o|Y[german])"⟩,
  ⟨105, c!"O", c!"", c!"", c!"o"⟩,
  ⟨107, c!"A", c!"", c!"[fklmnprst]$", c!"(a|o)"⟩,
  ⟨108, c!"A", c!"", c!"ts$", c!"(a|o)"⟩,
  ⟨109, c!"A", c!"", c!"$", c!"(a|o)"⟩,
  ⟨110, c!"A", c!"[oeiuQY]", c!"", c!"(a|o)"⟩,
  ⟨111, c!"A", c!"", c!"", c!"(a|o|Y[german])"⟩,
  ⟨112, c!"A", c!"", c!"", c!"(a|o)"⟩,
  ⟨114, c!"U", c!"", c!"$", c!"u"⟩,
  ⟨115, c!"U", c!"[DoiuQY]", c!"", c!"u"⟩,
  ⟨116, c!"U", c!"", c!"[^k]$", c!"u"⟩,
  ⟨117, c!"Uk", c!"[lr]", c!"$", c!"(uk|Qk[german])"⟩,
  ⟨118, c!"Uk", c!"", c!"$", c!"uk"⟩,
  ⟨119, c!"sUts", c!"", c!"$", c!"(suts|sQts[german])"⟩,
  ⟨120, c!"Uts", c!"", c!"$", c!"uts"⟩,
  ⟨121, c!"U", c!"", c!"", c!"(u|Q[german])"⟩,
  ⟨122, c!"U", c!"", c!"", c!"u"⟩,
  ⟨124, c!"e", c!"", c!"[fklmnprstv]$", c!"i"⟩,
  ⟨125, c!"e", c!"", c!"ts$", c!"i"⟩,
  ⟨126, c!"e", c!"", c!"$", c!"i"⟩,
  ⟨127, c!"e", c!"[DaoiuAOIUQY]", c!"", c!"i"⟩,
  ⟨128, c!"e", c!"", c!"[aoAOQY]", c!"i"⟩,
  ⟨129, c!"e", c!"", c!"", c!"(i|Y[german])"⟩,
  ⟨131, c!"a", c!"", c!"", c!"(a|o)"⟩]

/-- The rules of `rules/bm/gen_approx_any.txt`. -/
def genApproxAnyLines : List EmbeddedLine :=
  genApproxAnyLines1 ++ genApproxAnyLines2

/-- Rules of `rules/bm/gen_approx_common.txt`, part 1. -/
def genApproxCommonLines1 : List EmbeddedLine := [
  ⟨23, c!"van", c!"^", c!"[bp]", c!"(vam|)"⟩,
  ⟨24, c!"van", c!"^", c!"", c!"(van|)"⟩,
  ⟨27, c!"n", c!"", c!"[bp]", c!"m"⟩,
  ⟨30, c!"h", c!"", c!"", c!""⟩,
  ⟨31, c!"H", c!"", c!"", c!"(x|)"⟩,
  ⟨35, c!"sen", c!"[rmnl]", c!"$", c!"(zn|zon)"⟩,
  ⟨36, c!"sen", c!"", c!"$", c!"(sn|son)"⟩,
  ⟨37, c!"sEn", c!"[rmnl]", c!"$", c!"(zn|zon)"⟩,
  ⟨38, c!"sEn", c!"", c!"$", c!"(sn|son)"⟩,
  ⟨40, c!"e", c!"[BbdfgklmnprsStvzZ]", c!"[ln]$", c!""⟩,
  ⟨41, c!"i", c!"[BbdfgklmnprsStvzZ]", c!"[ln]$", c!""⟩,
  ⟨42, c!"E", c!"[BbdfgklmnprsStvzZ]", c!"[ln]$", c!""⟩,
  ⟨43, c!"I", c!"[BbdfgklmnprsStvzZ]", c!"[ln]$", c!""⟩,
  ⟨44, c!"Q", c!"[BbdfgklmnprsStvzZ]", c!"[ln]$", c!""⟩,
  ⟨45, c!"Y", c!"[BbdfgklmnprsStvzZ]", c!"[ln]$", c!""⟩,
  ⟨47, c!"e", c!"[BbdfgklmnprsStvzZ]", c!"[ln][BbdfgklmnprsStvzZ]", c!""⟩,
  ⟨48, c!"i", c!"[BbdfgklmnprsStvzZ]", c!"[ln][BbdfgklmnprsStvzZ]", c!""⟩,
  ⟨49, c!"E", c!"[BbdfgklmnprsStvzZ]", c!"[ln][BbdfgklmnprsStvzZ]", c!""⟩,
  ⟨50, c!"I", c!"[BbdfgklmnprsStvzZ]", c!"[ln][BbdfgklmnprsStvzZ]", c!""⟩,
  ⟨51, c!"Q", c!"[BbdfgklmnprsStvzZ]", c!"[ln][BbdfgklmnprsStvzZ]", c!""⟩,
  ⟨52, c!"Y", c!"[BbdfgklmnprsStvzZ]", c!"[ln][BbdfgklmnprsStvzZ]", c!""⟩,
  ⟨54, c!"lEs", c!"", c!"", c!"(lEs|lz)"⟩,
  ⟨55, c!"lE", c!"[bdfgkmnprStvzZ]", c!"", c!"(lE|l)"⟩,
  ⟨58, c!"aue", c!"", c!"", c!"D"⟩,
  ⟨59, c!"oue", c!"", c!"", c!"D"⟩,
  ⟨61, c!"AvE", c!"", c!"", c!"(D|AvE)"⟩,
  ⟨62, c!"Ave", c!"", c!"", c!"(D|Ave)"⟩,
  ⟨63, c!"avE", c!"", c!"", c!"(D|avE)"⟩,
  ⟨64, c!"ave", c!"", c!"", c!"(D|ave)"⟩,
  ⟨66, c!"OvE", c!"", c!"", c!"(D|OvE)"⟩,
  ⟨67, c!"Ove", c!"", c!"", c!"(D|Ove)"⟩,
  ⟨68, c!"ovE", c!"", c!"", c!"(D|ovE)"⟩,
  ⟨69, c!"ove", c!"", c!"", c!"(D|ove)"⟩,
  ⟨71, c!"ea", c!"", c!"", c!"(D|ea)"⟩,
  ⟨72, c!"EA", c!"", c!"", c!"(D|EA)"⟩,
  ⟨73, c!"Ea", c!"", c!"", c!"(D|Ea)"⟩,
  ⟨74, c!"eA", c!"", c!"", c!"(D|eA)"⟩,
  ⟨76, c!"aji", c!"", c!"", c!"D"⟩,
  ⟨77, c!"ajI", c!"", c!"", c!"D"⟩,
  ⟨78, c!"aje", c!"", c!"", c!"D"⟩,
  ⟨79, c!"ajE", c!"", c!"", c!"D"⟩,
  ⟨81, c!"Aji", c!"", c!"", c!"D"⟩,
  ⟨82, c!"AjI", c!"", c!"", c!"D"⟩,
  ⟨83, c!"Aje", c!"", c!"", c!"D"⟩,
  ⟨84, c!"AjE", c!"", c!"", c!"D"⟩,
  ⟨86, c!"oji", c!"", c!"", c!"D"⟩,
  ⟨87, c!"ojI", c!"", c!"", c!"D"⟩,
  ⟨88, c!"oje", c!"", c!"", c!"D"⟩,
  ⟨89, c!"ojE", c!"", c!"", c!"D"⟩,
  ⟨91, c!"Oji", c!"", c!"", c!"D"⟩,
  ⟨92, c!"OjI", c!"", c!"", c!"D"⟩,
  ⟨93, c!"Oje", c!"", c!"", c!"D"⟩,
  ⟨94, c!"OjE", c!"", c!"", c!"D"⟩,
  ⟨96, c!"eji", c!"", c!"", c!"D"⟩,
  ⟨97, c!"ejI", c!"", c!"", c!"D"⟩,
  ⟨98, c!"eje", c!"", c!"", c!"D"⟩,
  ⟨99, c!"ejE", c!"", c!"", c!"D"⟩,
  ⟨101, c!"Eji", c!"", c!"", c!"D"⟩,
  ⟨102, c!"EjI", c!"", c!"", c!"D"⟩,
  ⟨103, c!"Eje", c!"", c!"", c!"D"⟩]

/-- Rules of `rules/bm/gen_approx_common.txt`, part 2. -/
def genApproxCommonLines2 : List EmbeddedLine := [
  ⟨104, c!"EjE", c!"", c!"", c!"D"⟩,
  ⟨106, c!"uji", c!"", c!"", c!"D"⟩,
  ⟨107, c!"ujI", c!"", c!"", c!"D"⟩,
  ⟨108, c!"uje", c!"", c!"", c!"D"⟩,
  ⟨109, c!"ujE", c!"", c!"", c!"D"⟩,
  ⟨111, c!"Uji", c!"", c!"", c!"D"⟩,
  ⟨112, c!"UjI", c!"", c!"", c!"D"⟩,
  ⟨113, c!"Uje", c!"", c!"", c!"D"⟩,
  ⟨114, c!"UjE", c!"", c!"", c!"D"⟩,
  ⟨116, c!"iji", c!"", c!"", c!"D"⟩,
  ⟨117, c!"ijI", c!"", c!"", c!"D"⟩,
  ⟨118, c!"ije", c!"", c!"", c!"D"⟩,
  ⟨119, c!"ijE", c!"", c!"", c!"D"⟩,
  ⟨121, c!"Iji", c!"", c!"", c!"D"⟩,
  ⟨122, c!"IjI", c!"", c!"", c!"D"⟩,
  ⟨123, c!"Ije", c!"", c!"", c!"D"⟩,
  ⟨124, c!"IjE", c!"", c!"", c!"D"⟩,
  ⟨126, c!"aja", c!"", c!"", c!"D"⟩,
  ⟨127, c!"ajA", c!"", c!"", c!"D"⟩,
  ⟨128, c!"ajo", c!"", c!"", c!"D"⟩,
  ⟨129, c!"ajO", c!"", c!"", c!"D"⟩,
  ⟨130, c!"aju", c!"", c!"", c!"D"⟩,
  ⟨131, c!"ajU", c!"", c!"", c!"D"⟩,
  ⟨133, c!"Aja", c!"", c!"", c!"D"⟩,
  ⟨134, c!"AjA", c!"", c!"", c!"D"⟩,
  ⟨135, c!"Ajo", c!"", c!"", c!"D"⟩,
  ⟨136, c!"AjO", c!"", c!"", c!"D"⟩,
  ⟨137, c!"Aju", c!"", c!"", c!"D"⟩,
  ⟨138, c!"AjU", c!"", c!"", c!"D"⟩,
  ⟨140, c!"oja", c!"", c!"", c!"D"⟩,
  ⟨141, c!"ojA", c!"", c!"", c!"D"⟩,
  ⟨142, c!"ojo", c!"", c!"", c!"D"⟩,
  ⟨143, c!"ojO", c!"", c!"", c!"D"⟩,
  ⟨144, c!"Aju", c!"", c!"", c!"D"⟩,
  ⟨145, c!"AjU", c!"", c!"", c!"D"⟩,
  ⟨147, c!"Oja", c!"", c!"", c!"D"⟩,
  ⟨148, c!"OjA", c!"", c!"", c!"D"⟩,
  ⟨149, c!"Ojo", c!"", c!"", c!"D"⟩,
  ⟨150, c!"OjO", c!"", c!"", c!"D"⟩,
  ⟨151, c!"Aju", c!"", c!"", c!"D"⟩,
  ⟨152, c!"AjU", c!"", c!"", c!"D"⟩,
  ⟨154, c!"eja", c!"", c!"", c!"D"⟩,
  ⟨155, c!"ejA", c!"", c!"", c!"D"⟩,
  ⟨156, c!"ejo", c!"", c!"", c!"D"⟩,
  ⟨157, c!"ejO", c!"", c!"", c!"D"⟩,
  ⟨158, c!"Aju", c!"", c!"", c!"D"⟩,
  ⟨159, c!"AjU", c!"", c!"", c!"D"⟩,
  ⟨161, c!"Eja", c!"", c!"", c!"D"⟩,
  ⟨162, c!"EjA", c!"", c!"", c!"D"⟩,
  ⟨163, c!"Ejo", c!"", c!"", c!"D"⟩,
  ⟨164, c!"EjO", c!"", c!"", c!"D"⟩,
  ⟨165, c!"Aju", c!"", c!"", c!"D"⟩,
  ⟨166, c!"AjU", c!"", c!"", c!"D"⟩,
  ⟨168, c!"uja", c!"", c!"", c!"D"⟩,
  ⟨169, c!"ujA", c!"", c!"", c!"D"⟩,
  ⟨170, c!"ujo", c!"", c!"", c!"D"⟩,
  ⟨171, c!"ujO", c!"", c!"", c!"D"⟩,
  ⟨172, c!"Aju", c!"", c!"", c!"D"⟩,
  ⟨173, c!"AjU", c!"", c!"", c!"D"⟩,
  ⟨175, c!"Uja", c!"", c!"", c!"D"⟩]

/-- Rules of `rules/bm/gen_approx_common.txt`, part 3. -/
def genApproxCommonLines3 : List EmbeddedLine := [
  ⟨176, c!"UjA", c!"", c!"", c!"D"⟩,
  ⟨177, c!"Ujo", c!"", c!"", c!"D"⟩,
  ⟨178, c!"UjO", c!"", c!"", c!"D"⟩,
  ⟨179, c!"Aju", c!"", c!"", c!"D"⟩,
  ⟨180, c!"AjU", c!"", c!"", c!"D"⟩,
  ⟨182, c!"ija", c!"", c!"", c!"D"⟩,
  ⟨183, c!"ijA", c!"", c!"", c!"D"⟩,
  ⟨184, c!"ijo", c!"", c!"", c!"D"⟩,
  ⟨185, c!"ijO", c!"", c!"", c!"D"⟩,
  ⟨186, c!"Aju", c!"", c!"", c!"D"⟩,
  ⟨187, c!"AjU", c!"", c!"", c!"D"⟩,
  ⟨189, c!"Ija", c!"", c!"", c!"D"⟩,
  ⟨190, c!"IjA", c!"", c!"", c!"D"⟩,
  ⟨191, c!"Ijo", c!"", c!"", c!"D"⟩,
  ⟨192, c!"IjO", c!"", c!"", c!"D"⟩,
  ⟨193, c!"Aju", c!"", c!"", c!"D"⟩,
  ⟨194, c!"AjU", c!"", c!"", c!"D"⟩,
  ⟨196, c!"j", c!"", c!"", c!"i"⟩,
  ⟨199, c!"lYndEr", c!"", c!"$", c!"lYnder"⟩,
  ⟨200, c!"lander", c!"", c!"$", c!"lYnder"⟩,
  ⟨201, c!"lAndEr", c!"", c!"$", c!"lYnder"⟩,
  ⟨202, c!"lAnder", c!"", c!"$", c!"lYnder"⟩,
  ⟨203, c!"landEr", c!"", c!"$", c!"lYnder"⟩,
  ⟨204, c!"lender", c!"", c!"$", c!"lYnder"⟩,
  ⟨205, c!"lEndEr", c!"", c!"$", c!"lYnder"⟩,
  ⟨206, c!"lendEr", c!"", c!"$", c!"lYnder"⟩,
  ⟨207, c!"lEnder", c!"", c!"$", c!"lYnder"⟩,
  ⟨210, c!"burk", c!"", c!"$", c!"(burk|berk)"⟩,
  ⟨211, c!"bUrk", c!"", c!"$", c!"(burk|berk)"⟩,
  ⟨212, c!"burg", c!"", c!"$", c!"(burk|berk)"⟩,
  ⟨213, c!"bUrg", c!"", c!"$", c!"(burk|berk)"⟩,
  ⟨214, c!"Burk", c!"", c!"$", c!"(burk|berk)"⟩,
  ⟨215, c!"BUrk", c!"", c!"$", c!"(burk|berk)"⟩,
  ⟨216, c!"Burg", c!"", c!"$", c!"(burk|berk)"⟩,
  ⟨217, c!"BUrg", c!"", c!"$", c!"(burk|berk)"⟩,
  ⟨220, c!"s", c!"", c!"[rmnl]", c!"z"⟩,
  ⟨221, c!"S", c!"", c!"[rmnl]", c!"z"⟩,
  ⟨222, c!"s", c!"[rmnl]", c!"", c!"z"⟩,
  ⟨223, c!"S", c!"[rmnl]", c!"", c!"z"⟩,
  ⟨225, c!"dS", c!"", c!"$", c!"S"⟩,
  ⟨226, c!"dZ", c!"", c!"$", c!"S"⟩,
  ⟨227, c!"Z", c!"", c!"$", c!"S"⟩,
  ⟨228, c!"S", c!"", c!"$", c!"(S|s)"⟩,
  ⟨229, c!"z", c!"", c!"$", c!"(S|s)"⟩,
  ⟨231, c!"S", c!"", c!"", c!"s"⟩,
  ⟨232, c!"dZ", c!"", c!"", c!"z"⟩,
  ⟨233, c!"Z", c!"", c!"", c!"z"⟩]

/-- The rules of `rules/bm/gen_approx_common.txt`. -/
def genApproxCommonLines : List EmbeddedLine :=
  genApproxCommonLines1 ++ genApproxCommonLines2 ++ genApproxCommonLines3

/-- The rules of `rules/bm/gen_exact_any.txt`. -/
def genExactAnyLines : List EmbeddedLine := [
  ⟨23, c!"EE", c!"", c!"$", c!"e"⟩,
  ⟨25, c!"A", c!"", c!"", c!"a"⟩,
  ⟨26, c!"E", c!"", c!"", c!"e"⟩,
  ⟨27, c!"I", c!"", c!"", c!"i"⟩,
  ⟨28, c!"O", c!"", c!"", c!"o"⟩,
  ⟨29, c!"P", c!"", c!"", c!"o"⟩,
  ⟨30, c!"U", c!"", c!"", c!"u"⟩,
  ⟨32, c!"B", c!"", c!"[fktSs]", c!"p"⟩,
  ⟨33, c!"B", c!"", c!"p", c!""⟩,
  ⟨34, c!"B", c!"", c!"$", c!"p"⟩,
  ⟨35, c!"V", c!"", c!"[pktSs]", c!"f"⟩,
  ⟨36, c!"V", c!"", c!"f", c!""⟩,
  ⟨37, c!"V", c!"", c!"$", c!"f"⟩,
  ⟨39, c!"B", c!"", c!"", c!"b"⟩,
  ⟨40, c!"V", c!"", c!"", c!"v"⟩]

/-- The rules of `rules/bm/gen_exact_approx_common.txt`. -/
def genExactApproxCommonLines : List EmbeddedLine := [
  ⟨19, c!"h", c!"", c!"$", c!""⟩,
  ⟨22, c!"b", c!"", c!"[fktSs]", c!"p"⟩,
  ⟨23, c!"b", c!"", c!"p", c!""⟩,
  ⟨24, c!"b", c!"", c!"$", c!"p"⟩,
  ⟨25, c!"p", c!"", c!"[vgdZz]", c!"b"⟩,
  ⟨26, c!"p", c!"", c!"b", c!""⟩,
  ⟨28, c!"v", c!"", c!"[pktSs]", c!"f"⟩,
  ⟨29, c!"v", c!"", c!"f", c!""⟩,
  ⟨30, c!"v", c!"", c!"$", c!"f"⟩,
  ⟨31, c!"f", c!"", c!"[vbgdZz]", c!"v"⟩,
  ⟨32, c!"f", c!"", c!"v", c!""⟩,
  ⟨34, c!"g", c!"", c!"[pftSs]", c!"k"⟩,
  ⟨35, c!"g", c!"", c!"k", c!""⟩,
  ⟨36, c!"g", c!"", c!"$", c!"k"⟩,
  ⟨37, c!"k", c!"", c!"[vbdZz]", c!"g"⟩,
  ⟨38, c!"k", c!"", c!"g", c!""⟩,
  ⟨40, c!"d", c!"", c!"[pfkSs]", c!"t"⟩,
  ⟨41, c!"d", c!"", c!"t", c!""⟩,
  ⟨42, c!"d", c!"", c!"$", c!"t"⟩,
  ⟨43, c!"t", c!"", c!"[vbgZz]", c!"d"⟩,
  ⟨44, c!"t", c!"", c!"d", c!""⟩,
  ⟨46, c!"s", c!"", c!"dZ", c!""⟩,
  ⟨47, c!"s", c!"", c!"tS", c!""⟩,
  ⟨49, c!"z", c!"", c!"[pfkSt]", c!"s"⟩,
  ⟨50, c!"z", c!"", c!"[sSzZ]", c!""⟩,
  ⟨51, c!"s", c!"", c!"[sSzZ]", c!""⟩,
  ⟨52, c!"Z", c!"", c!"[sSzZ]", c!""⟩,
  ⟨53, c!"S", c!"", c!"[sSzZ]", c!""⟩,
  ⟨56, c!"jnm", c!"", c!"", c!"jm"⟩,
  ⟨59, c!"ji", c!"^", c!"", c!"i"⟩,
  ⟨60, c!"jI", c!"^", c!"", c!"I"⟩,
  ⟨62, c!"a", c!"", c!"[aA]", c!""⟩,
  ⟨63, c!"a", c!"A", c!"", c!""⟩,
  ⟨64, c!"A", c!"", c!"A", c!""⟩,
  ⟨66, c!"b", c!"", c!"b", c!""⟩,
  ⟨67, c!"d", c!"", c!"d", c!""⟩,
  ⟨68, c!"f", c!"", c!"f", c!""⟩,
  ⟨69, c!"g", c!"", c!"g", c!""⟩,
  ⟨70, c!"j", c!"", c!"j", c!""⟩,
  ⟨71, c!"k", c!"", c!"k", c!""⟩,
  ⟨72, c!"l", c!"", c!"l", c!""⟩,
  ⟨73, c!"m", c!"", c!"m", c!""⟩,
  ⟨74, c!"n", c!"", c!"n", c!""⟩,
  ⟨75, c!"p", c!"", c!"p", c!""⟩,
  ⟨76, c!"r", c!"", c!"r", c!""⟩,
  ⟨77, c!"t", c!"", c!"t", c!""⟩,
  ⟨78, c!"v", c!"", c!"v", c!""⟩,
  ⟨79, c!"z", c!"", c!"z", c!""⟩]

/-- The rules of `rules/bm/gen_exact_common.txt`. -/
def genExactCommonLines : List EmbeddedLine := [
  ⟨20, c!"H", c!"", c!"", c!""⟩,
  ⟨23, c!"s", c!"[^t]", c!"[bgZd]", c!"z"⟩,
  ⟨24, c!"Z", c!"", c!"[pfkst]", c!"S"⟩,
  ⟨25, c!"Z", c!"", c!"$", c!"S"⟩,
  ⟨26, c!"S", c!"", c!"[bgzd]", c!"Z"⟩,
  ⟨27, c!"z", c!"", c!"$", c!"s"⟩,
  ⟨29, c!"ji", c!"[aAoOeEiIuU]", c!"", c!"j"⟩,
  ⟨30, c!"jI", c!"[aAoOeEiIuU]", c!"", c!"j"⟩,
  ⟨31, c!"je", c!"[aAoOeEiIuU]", c!"", c!"j"⟩,
  ⟨32, c!"jE", c!"[aAoOeEiIuU]", c!"", c!"j"⟩]

/-- Rules of `rules/bm/gen_rules_any.txt`, part 1. -/
def genRulesAnyLines1 : List EmbeddedLine := [
  ⟨35, c!"yna", c!"", c!"$", c!"(in[russian]|ina)"⟩,
  ⟨36, c!"ina", c!"", c!"$", c!"(in[russian]|ina)"⟩,
  ⟨37, c!"liova", c!"", c!"$", c!"(lova|lof[russian]|lef[russian])"⟩,
  ⟨38, c!"lova", c!"", c!"$", c!"(lova|lof[russian]|lef[russian]|l[czech]|el[czech])"⟩,
  ⟨39, c!"kova", c!"", c!"$", c!"(kova|kof[russian]|k[czech]|ek[czech])"⟩,
  ⟨40, c!"ova", c!"", c!"$", c!"(ova|of[russian]|[czech])"⟩,
  ⟨41, c!"ová", c!"", c!"$", c!"(ova|[czech])"⟩,
  ⟨42, c!"eva", c!"", c!"$", c!"(eva|ef[russian])"⟩,
  ⟨43, c!"aia", c!"", c!"$", c!"(aja|i[russian])"⟩,
  ⟨44, c!"aja", c!"", c!"$", c!"(aja|i[russian])"⟩,
  ⟨45, c!"aya", c!"", c!"$", c!"(aja|i[russian])"⟩,
  ⟨47, c!"lowa", c!"", c!"$", c!"(lova|lof[polish]|l[polish]|el[polish])"⟩,
  ⟨48, c!"kowa", c!"", c!"$", c!"(kova|kof[polish]|k[polish]|ek[polish])"⟩,
  ⟨49, c!"owa", c!"", c!"$", c!"(ova|of[polish]|)"⟩,
  ⟨50, c!"lowna", c!"", c!"$", c!"(lovna|levna|l[polish]|el[polish])"⟩,
  ⟨51, c!"kowna", c!"", c!"$", c!"(kovna|k[polish]|ek[polish])"⟩,
  ⟨52, c!"owna", c!"", c!"$", c!"(ovna|[polish])"⟩,
  ⟨53, c!"lówna", c!"", c!"$", c!"(l|el)"⟩,
  ⟨54, c!"kówna", c!"", c!"$", c!"(k|ek)"⟩,
  ⟨55, c!"ówna", c!"", c!"$", c!""⟩,
  ⟨56, c!"á", c!"", c!"$", c!"(a|i[czech])"⟩,
  ⟨57, c!"a", c!"", c!"$", c!"(a|i[polish+czech])"⟩,
  ⟨60, c!"pf", c!"", c!"", c!"(pf|p|f)"⟩,
  ⟨61, c!"que", c!"", c!"$", c!"(k[french]|ke|kve)"⟩,
  ⟨62, c!"qu", c!"", c!"", c!"(kv|k)"⟩,
  ⟨64, c!"m", c!"", c!"[bfpv]", c!"(m|n)"⟩,
  ⟨65, c!"m", c!"[aeiouy]", c!"[aeiouy]", c!"m"⟩,
  ⟨66, c!"m", c!"[aeiouy]", c!"", c!"(m|n[french+portuguese])"⟩,
  ⟨68, c!"ly", c!"", c!"[au]", c!"l"⟩,
  ⟨69, c!"li", c!"", c!"[au]", c!"l"⟩,
  ⟨70, c!"lio", c!"", c!"", c!"(lo|le[russian])"⟩,
  ⟨71, c!"lyo", c!"", c!"", c!"(lo|le[russian])"⟩,
  ⟨73, c!"lt", c!"u", c!"$", c!"(lt|[french])"⟩,
  ⟨75, c!"v", c!"^", c!"", c!"(v|f[german]|b[spanish])"⟩,
  ⟨77, c!"ex", c!"", c!"[aáuiíoóeéêy]", c!"(ez[portuguese]|eS[portuguese]|eks|egz)"⟩,
  ⟨78, c!"ex", c!"", c!"[cs]", c!"(e[portuguese]|ek)"⟩,
  ⟨79, c!"x", c!"u", c!"$", c!"(ks|[french])"⟩,
  ⟨81, c!"ck", c!"", c!"", c!"(k|tsk[polish+czech])"⟩,
  ⟨82, c!"cz", c!"", c!"", c!"(tS|tsz[czech])"⟩,
  ⟨85, c!"rh", c!"^", c!"", c!"r"⟩,
  ⟨86, c!"dh", c!"^", c!"", c!"d"⟩,
  ⟨87, c!"bh", c!"^", c!"", c!"b"⟩,
  ⟨89, c!"ph", c!"", c!"", c!"(ph|f)"⟩,
  ⟨90, c!"kh", c!"", c!"", c!"(x[russian+english]|kh)"⟩,
  ⟨92, c!"lh", c!"", c!"", c!"(lh|l[portuguese])"⟩,
  ⟨93, c!"nh", c!"", c!"", c!"(nh|nj[portuguese])"⟩,
  ⟨95, c!"ssch", c!"", c!"", c!"S"⟩,
  ⟨96, c!"chsch", c!"", c!"", c!"xS"⟩,
  ⟨97, c!"tsch", c!"", c!"", c!"tS"⟩,
  ⟨103, c!"sch", c!"[aeiouy]", c!"[ei]", c!"(S|StS[russian]|sk[romanian+italian])"⟩,
  ⟨104, c!"sch", c!"[aeiouy]", c!"", c!"(S|StS[russian])"⟩,
  ⟨105, c!"sch", c!"", c!"[ei]", c!"(sk[romanian+italian]|S|StS[russian])"⟩,
  ⟨106, c!"sch", c!"", c!"", c!"(S|StS[russian])"⟩,
  ⟨107, c!"ssh", c!"", c!"", c!"S"⟩,
  ⟨109, c!"sh", c!"", c!"[äöü]", c!"sh"⟩,
  ⟨110, c!"sh", c!"", c!"[aeiou]", c!"(S[russian+english]|sh)"⟩,
  ⟨111, c!"sh", c!"", c!"", c!"S"⟩,
  ⟨113, c!"zh", c!"", c!"", c!"(Z[english+russian]|zh|tsh[german])"⟩,
  ⟨115, c!"chs", c!"", c!"", c!"(ks[german]|xs|tSs[russian+english])"⟩,
  ⟨116, c!"ch", c!"", c!"[ei]", c!"(x|tS[spanish+english+russian]|k[romanian+italian]|S[portuguese+french])"⟩]

/-- Rules of `rules/bm/gen_rules_any.txt`, part 2. -/
def genRulesAnyLines2 : List EmbeddedLine := [
  ⟨117, c!"ch", c!"", c!"", c!"(x|tS[spanish+english+russian]|S[portuguese+french])"⟩,
  ⟨119, c!"th", c!"^", c!"", c!"t"⟩,
  ⟨120, c!"th", c!"", c!"[äöüaeiou]", c!"(t[english+german+greeklatin]|th)"⟩,
  ⟨121, c!"th", c!"", c!"", c!"t"⟩,
  ⟨123, c!"gh", c!"", c!"[ei]", c!"(g[romanian+italian+greeklatin]|gh)"⟩,
  ⟨125, c!"ouh", c!"", c!"[aioe]", c!"(v[french]|uh)"⟩,
  ⟨126, c!"uh", c!"", c!"[aioe]", c!"(v|uh)"⟩,
  ⟨127, c!"h", c!".", c!"$", c!""⟩,
  ⟨128, c!"h", c!"[aeiouyäöü]", c!"", c!""⟩,
  ⟨129, c!"h", c!"^", c!"", c!"(h|x[romanian+greeklatin]|H[english+romanian+polish+french+portuguese+italian+spanish])"⟩,
  ⟨132, c!"cia", c!"", c!"", c!"(tSa[polish]|tsa)"⟩,
  ⟨133, c!"cią", c!"", c!"[bp]", c!"(tSom|tsom)"⟩,
  ⟨134, c!"cią", c!"", c!"", c!"(tSon[polish]|tson)"⟩,
  ⟨135, c!"cię", c!"", c!"[bp]", c!"(tSem[polish]|tsem)"⟩,
  ⟨136, c!"cię", c!"", c!"", c!"(tSen[polish]|tsen)"⟩,
  ⟨137, c!"cie", c!"", c!"", c!"(tSe[polish]|tse)"⟩,
  ⟨138, c!"cio", c!"", c!"", c!"(tSo[polish]|tso)"⟩,
  ⟨139, c!"ciu", c!"", c!"", c!"(tSu[polish]|tsu)"⟩,
  ⟨141, c!"sci", c!"", c!"$", c!"(Si[italian]|stsi[polish+czech]|dZi[turkish]|tSi[polish+romanian]|tS[romanian]|si)"⟩,
  ⟨142, c!"sc", c!"", c!"[ei]", c!"(S[italian]|sts[polish+czech]|dZ[turkish]|tS[polish+romanian]|s)"⟩,
  ⟨143, c!"ci", c!"", c!"$", c!"(tsi[polish+czech]|dZi[turkish]|tSi[polish+romanian]|tS[romanian]|si)"⟩,
  ⟨144, c!"cy", c!"", c!"", c!"(si|tsi[polish])"⟩,
  ⟨145, c!"c", c!"", c!"[ei]", c!"(ts[polish+czech]|dZ[turkish]|tS[polish+romanian]|k[greeklatin]|s)"⟩,
  ⟨148, c!"sç", c!"", c!"[aeiou]", c!"(s|stS[turkish])"⟩,
  ⟨149, c!"ssz", c!"", c!"", c!"S"⟩,
  ⟨150, c!"sz", c!"^", c!"", c!"(S|s[hungarian])"⟩,
  ⟨151, c!"sz", c!"", c!"$", c!"(S|s[hungarian])"⟩,
  ⟨152, c!"sz", c!"", c!"", c!"(S|s[hungarian]|sts[german])"⟩,
  ⟨153, c!"ssp", c!"", c!"", c!"(Sp[german]|sp)"⟩,
  ⟨154, c!"sp", c!"", c!"", c!"(Sp[german]|sp)"⟩,
  ⟨155, c!"sst", c!"", c!"", c!"(St[german]|st)"⟩,
  ⟨156, c!"st", c!"", c!"", c!"(St[german]|st)"⟩,
  ⟨157, c!"ss", c!"", c!"", c!"s"⟩,
  ⟨158, c!"sj", c!"^", c!"", c!"S"⟩,
  ⟨159, c!"sj", c!"", c!"$", c!"S"⟩,
  ⟨160, c!"sj", c!"", c!"", c!"(sj|S[dutch]|sx[spanish]|sZ[romanian+turkish])"⟩,
  ⟨162, c!"sia", c!"", c!"", c!"(Sa[polish]|sa[polish]|sja)"⟩,
  ⟨163, c!"sią", c!"", c!"[bp]", c!"(Som[polish]|som)"⟩,
  ⟨164, c!"sią", c!"", c!"", c!"(Son[polish]|son)"⟩,
  ⟨165, c!"się", c!"", c!"[bp]", c!"(Sem[polish]|sem)"⟩,
  ⟨166, c!"się", c!"", c!"", c!"(Sen[polish]|sen)"⟩,
  ⟨167, c!"sie", c!"", c!"", c!"(se|sje|Se[polish]|zi[german])"⟩,
  ⟨169, c!"sio", c!"", c!"", c!"(So[polish]|so)"⟩,
  ⟨170, c!"siu", c!"", c!"", c!"(Su[polish]|sju)"⟩,
  ⟨172, c!"si", c!"[äöëaáuiíoóeéêy]", c!"", c!"(Si[polish]|si|zi[portuguese+french+italian+german])"⟩,
  ⟨173, c!"si", c!"", c!"", c!"(Si[polish]|si|zi[german])"⟩,
  ⟨174, c!"s", c!"[aáuiíoóeéêy]", c!"[aáuíoóeéêy]", c!"(s|z[portuguese+french+italian+german])"⟩,
  ⟨175, c!"s", c!"", c!"[aeouäöë]", c!"(s|z[german])"⟩,
  ⟨176, c!"s", c!"[aeiouy]", c!"[dglmnrv]", c!"(s|z|Z[portuguese]|[french])"⟩,
  ⟨177, c!"s", c!"", c!"[dglmnrv]", c!"(s|z|Z[portuguese])"⟩,
  ⟨180, c!"gue", c!"", c!"$", c!"(k[french]|gve)"⟩,
  ⟨181, c!"gu", c!"", c!"[ei]", c!"(g[french]|gv[portuguese+spanish])"⟩,
  ⟨182, c!"gu", c!"", c!"[ao]", c!"gv"⟩,
  ⟨183, c!"guy", c!"", c!"", c!"gi"⟩,
  ⟨185, c!"gli", c!"", c!"", c!"(glI|l[italian])"⟩,
  ⟨186, c!"gni", c!"", c!"", c!"(gnI|ni[italian+french])"⟩,
  ⟨187, c!"gn", c!"", c!"[aeou]", c!"(n[italian+french]|nj[italian+french]|gn)"⟩,
  ⟨189, c!"ggie", c!"", c!"", c!"(je[greeklatin]|dZe)"⟩,
  ⟨190, c!"ggi", c!"", c!"[aou]", c!"(j[greeklatin]|dZ)"⟩,
  ⟨192, c!"ggi", c!"[yaeiou]", c!"[aou]", c!"(gI|dZ[italian]|j[greeklatin])"⟩]

/-- Rules of `rules/bm/gen_rules_any.txt`, part 3. -/
def genRulesAnyLines3 : List EmbeddedLine := [
  ⟨193, c!"gge", c!"[yaeiou]", c!"", c!"(gE|xe[spanish]|gZe[portuguese+french]|dZe[english+romanian+italian+spanish]|je[greeklatin])"⟩,
  ⟨194, c!"ggi", c!"[yaeiou]", c!"", c!"(gI|xi[spanish]|gZi[portuguese+french]|dZi[english+romanian+italian+spanish]|i[greeklatin])"⟩,
  ⟨195, c!"ggi", c!"", c!"[aou]", c!"(gI|dZ[italian]|j[greeklatin])"⟩,
  ⟨197, c!"gie", c!"", c!"$", c!"(ge|gi[german]|ji[french]|dZe[italian])"⟩,
  ⟨198, c!"gie", c!"", c!"", c!"(ge|gi[german]|dZe[italian]|je[greeklatin])"⟩,
  ⟨199, c!"gi", c!"", c!"[aou]", c!"(i[greeklatin]|dZ)"⟩,
  ⟨201, c!"ge", c!"[yaeiou]", c!"", c!"(gE|xe[spanish]|Ze[portuguese+french]|dZe[english+romanian+italian+spanish])"⟩,
  ⟨202, c!"gi", c!"[yaeiou]", c!"", c!"(gI|xi[spanish]|Zi[portuguese+french]|dZi[english+romanian+italian+spanish])"⟩,
  ⟨203, c!"ge", c!"", c!"", c!"(gE|xe[spanish]|hE[russian]|je[greeklatin]|Ze[portuguese+french]|dZe[english+romanian+italian+spanish])"⟩,
  ⟨204, c!"gi", c!"", c!"", c!"(gI|xi[spanish]|hI[russian]|i[greeklatin]|Zi[portuguese+french]|dZi[english+romanian+italian+spanish])"⟩,
  ⟨205, c!"gy", c!"", c!"[aeouáéóúüöőű]", c!"(gi|dj[hungarian])"⟩,
  ⟨206, c!"gy", c!"", c!"", c!"(gi|d[hungarian])"⟩,
  ⟨207, c!"g", c!"[yaeiou]", c!"[aouyei]", c!"g"⟩,
  ⟨208, c!"g", c!"", c!"[aouei]", c!"(g|h[russian])"⟩,
  ⟨211, c!"ij", c!"", c!"", c!"(i|ej[dutch]|ix[spanish]|iZ[french+romanian+turkish+portuguese])"⟩,
  ⟨212, c!"j", c!"", c!"[aoeiuy]", c!"(j|dZ[english]|x[spanish]|Z[french+romanian+turkish+portuguese])"⟩,
  ⟨215, c!"rz", c!"t", c!"", c!"(S[polish]|r)"⟩,
  ⟨216, c!"rz", c!"", c!"", c!"(rz|rts[german]|Z[polish]|r[polish]|rZ[polish])"⟩,
  ⟨218, c!"tz", c!"", c!"$", c!"(ts|tS[english+german])"⟩,
  ⟨219, c!"tz", c!"^", c!"", c!"(ts[english+german+russian]|tS[english+german])"⟩,
  ⟨220, c!"tz", c!"", c!"", c!"(ts[english+german+russian]|tz)"⟩,
  ⟨222, c!"zia", c!"", c!"[bcdgkpstwzż]", c!"(Za[polish]|za[polish]|zja)"⟩,
  ⟨223, c!"zia", c!"", c!"", c!"(Za[polish]|zja)"⟩,
  ⟨224, c!"zią", c!"", c!"[bp]", c!"(Zom[polish]|zom)"⟩,
  ⟨225, c!"zią", c!"", c!"", c!"(Zon[polish]|zon)"⟩,
  ⟨226, c!"zię", c!"", c!"[bp]", c!"(Zem[polish]|zem)"⟩,
  ⟨227, c!"zię", c!"", c!"", c!"(Zen[polish]|zen)"⟩,
  ⟨228, c!"zie", c!"", c!"[bcdgkpstwzż]", c!"(Ze[polish]|ze[polish]|ze|tsi[german])"⟩,
  ⟨229, c!"zie", c!"", c!"", c!"(ze|Ze[polish]|tsi[german])"⟩,
  ⟨230, c!"zio", c!"", c!"", c!"(Zo[polish]|zo)"⟩,
  ⟨231, c!"ziu", c!"", c!"", c!"(Zu[polish]|zju)"⟩,
  ⟨232, c!"zi", c!"", c!"", c!"(Zi[polish]|zi|tsi[german]|dzi[italian]|tsi[italian]|si[spanish])"⟩,
  ⟨234, c!"z", c!"", c!"$", c!"(s|ts[german]|ts[italian]|S[portuguese])"⟩,
  ⟨235, c!"z", c!"", c!"[bdgv]", c!"(z|dz[italian]|Z[portuguese])"⟩,
  ⟨236, c!"z", c!"", c!"[ptckf]", c!"(s|ts[italian]|S[portuguese])"⟩,
  ⟨239, c!"aue", c!"", c!"", c!"aue"⟩,
  ⟨240, c!"oue", c!"", c!"", c!"(oue|ve[french])"⟩,
  ⟨241, c!"eau", c!"", c!"", c!"o"⟩,
  ⟨243, c!"ae", c!"", c!"", c!"(Y[german]|aje[russian]|ae)"⟩,
  ⟨244, c!"ai", c!"", c!"", c!"aj"⟩,
  ⟨245, c!"au", c!"", c!"", c!"(au|o[french])"⟩,
  ⟨246, c!"ay", c!"", c!"", c!"aj"⟩,
  ⟨247, c!"ão", c!"", c!"", c!"(au|an)"⟩,
  ⟨248, c!"ãe", c!"", c!"", c!"(aj|an)"⟩,
  ⟨249, c!"ãi", c!"", c!"", c!"(aj|an)"⟩,
  ⟨250, c!"ea", c!"", c!"", c!"(ea|ja[romanian])"⟩,
  ⟨251, c!"ee", c!"", c!"", c!"(i[english]|aje[russian]|e)"⟩,
  ⟨252, c!"ei", c!"", c!"", c!"(aj|ej)"⟩,
  ⟨253, c!"eu", c!"", c!"", c!"(eu|Yj[german]|ej[german]|oj[german]|Y[dutch])"⟩,
  ⟨254, c!"ey", c!"", c!"", c!"(aj|ej)"⟩,
  ⟨255, c!"ia", c!"", c!"", c!"ja"⟩,
  ⟨256, c!"ie", c!"", c!"", c!"(i[german]|e[polish]|ije[russian]|Q[dutch]|je)"⟩,
  ⟨257, c!"ii", c!"", c!"$", c!"i"⟩,
  ⟨258, c!"io", c!"", c!"", c!"(jo|e[russian])"⟩,
  ⟨259, c!"iu", c!"", c!"", c!"ju"⟩,
  ⟨260, c!"iy", c!"", c!"$", c!"i"⟩,
  ⟨261, c!"oe", c!"", c!"", c!"(Y[german]|oje[russian]|u[dutch]|oe)"⟩,
  ⟨262, c!"oi", c!"", c!"", c!"oj"⟩,
  ⟨263, c!"oo", c!"", c!"", c!"(u[english]|o)"⟩,
  ⟨264, c!"ou", c!"", c!"", c!"(ou|u[french+greeklatin]|au[dutch])"⟩]

/-- Rules of `rules/bm/gen_rules_any.txt`, part 4. -/
def genRulesAnyLines4 : List EmbeddedLine := [
  ⟨265, c!"où", c!"", c!"", c!"u"⟩,
  ⟨266, c!"oy", c!"", c!"", c!"oj"⟩,
  ⟨267, c!"õe", c!"", c!"", c!"(oj|on)"⟩,
  ⟨268, c!"ua", c!"", c!"", c!"va"⟩,
  ⟨269, c!"ue", c!"", c!"", c!"(Q[german]|uje[russian]|ve)"⟩,
  ⟨270, c!"ui", c!"", c!"", c!"(uj|vi|Y[dutch])"⟩,
  ⟨271, c!"uu", c!"", c!"", c!"(u|Q[dutch])"⟩,
  ⟨272, c!"uo", c!"", c!"", c!"(vo|o)"⟩,
  ⟨273, c!"uy", c!"", c!"", c!"uj"⟩,
  ⟨274, c!"ya", c!"", c!"", c!"ja"⟩,
  ⟨275, c!"ye", c!"", c!"", c!"(je|ije[russian])"⟩,
  ⟨276, c!"yi", c!"^", c!"", c!"i"⟩,
  ⟨277, c!"yi", c!"", c!"$", c!"i"⟩,
  ⟨278, c!"yo", c!"", c!"", c!"(jo|e[russian])"⟩,
  ⟨279, c!"yu", c!"", c!"", c!"ju"⟩,
  ⟨280, c!"yy", c!"", c!"$", c!"i"⟩,
  ⟨282, c!"i", c!"[áóéê]", c!"", c!"j"⟩,
  ⟨283, c!"y", c!"[áóéê]", c!"", c!"j"⟩,
  ⟨285, c!"e", c!"^", c!"", c!"(e|je[russian])"⟩,
  ⟨286, c!"e", c!"", c!"$", c!"(e|EE[english+french])"⟩,
  ⟨289, c!"ą", c!"", c!"[bp]", c!"om"⟩,
  ⟨290, c!"ą", c!"", c!"", c!"on"⟩,
  ⟨291, c!"ä", c!"", c!"", c!"(Y|e)"⟩,
  ⟨292, c!"á", c!"", c!"", c!"a"⟩,
  ⟨293, c!"à", c!"", c!"", c!"a"⟩,
  ⟨294, c!"â", c!"", c!"", c!"a"⟩,
  ⟨295, c!"ã", c!"", c!"", c!"(a|an)"⟩,
  ⟨296, c!"ă", c!"", c!"", c!"(e[romanian]|a)"⟩,
  ⟨297, c!"č", c!"", c!"", c!"tS"⟩,
  ⟨298, c!"ć", c!"", c!"", c!"(tS[polish]|ts)"⟩,
  ⟨299, c!"ç", c!"", c!"", c!"(s|tS[turkish])"⟩,
  ⟨300, c!"ď", c!"", c!"", c!"(d|dj[czech])"⟩,
  ⟨301, c!"ę", c!"", c!"[bp]", c!"em"⟩,
  ⟨302, c!"ę", c!"", c!"", c!"en"⟩,
  ⟨303, c!"é", c!"", c!"", c!"e"⟩,
  ⟨304, c!"è", c!"", c!"", c!"e"⟩,
  ⟨305, c!"ê", c!"", c!"", c!"e"⟩,
  ⟨306, c!"ě", c!"", c!"", c!"(e|je[czech])"⟩,
  ⟨307, c!"ğ", c!"", c!"", c!""⟩,
  ⟨308, c!"í", c!"", c!"", c!"i"⟩,
  ⟨309, c!"î", c!"", c!"", c!"i"⟩,
  ⟨310, c!"ı", c!"", c!"", c!"(i|e[turkish]|[turkish])"⟩,
  ⟨311, c!"ł", c!"", c!"", c!"l"⟩,
  ⟨312, c!"ń", c!"", c!"", c!"(n|nj[polish])"⟩,
  ⟨313, c!"ñ", c!"", c!"", c!"(n|nj[spanish])"⟩,
  ⟨314, c!"ó", c!"", c!"", c!"(u[polish]|o)"⟩,
  ⟨315, c!"ô", c!"", c!"", c!"o"⟩,
  ⟨316, c!"õ", c!"", c!"", c!"(o|on[portuguese]|Y[hungarian])"⟩,
  ⟨317, c!"ò", c!"", c!"", c!"o"⟩,
  ⟨318, c!"ö", c!"", c!"", c!"Y"⟩,
  ⟨319, c!"ř", c!"", c!"", c!"(r|rZ[czech])"⟩,
  ⟨320, c!"ś", c!"", c!"", c!"(S[polish]|s)"⟩,
  ⟨321, c!"ş", c!"", c!"", c!"S"⟩,
  ⟨322, c!"š", c!"", c!"", c!"S"⟩,
  ⟨323, c!"ţ", c!"", c!"", c!"ts"⟩,
  ⟨324, c!"ť", c!"", c!"", c!"(t|tj[czech])"⟩,
  ⟨325, c!"ű", c!"", c!"", c!"Q"⟩,
  ⟨326, c!"ü", c!"", c!"", c!"(Q|u[portuguese+spanish])"⟩,
  ⟨327, c!"ú", c!"", c!"", c!"u"⟩,
  ⟨328, c!"ů", c!"", c!"", c!"u"⟩]

/-- Rules of `rules/bm/gen_rules_any.txt`, part 5. -/
def genRulesAnyLines5 : List EmbeddedLine := [
  ⟨329, c!"ù", c!"", c!"", c!"u"⟩,
  ⟨330, c!"ý", c!"", c!"", c!"i"⟩,
  ⟨331, c!"ż", c!"", c!"", c!"Z"⟩,
  ⟨332, c!"ź", c!"", c!"", c!"(Z[polish]|z)"⟩,
  ⟨334, c!"ß", c!"", c!"", c!"s"⟩,
  ⟨335, c!"'", c!"", c!"", c!""⟩,
  ⟨336, c!"\\\"", c!"", c!"", c!""⟩,
  ⟨338, c!"o", c!"", c!"[bcćdgklłmnńrsśtwzźż]", c!"(O|P[polish])"⟩,
  ⟨341, c!"a", c!"", c!"", c!"A"⟩,
  ⟨342, c!"b", c!"", c!"", c!"B"⟩,
  ⟨343, c!"c", c!"", c!"", c!"(k|ts[polish+czech]|dZ[turkish])"⟩,
  ⟨344, c!"d", c!"", c!"", c!"d"⟩,
  ⟨345, c!"e", c!"", c!"", c!"E"⟩,
  ⟨346, c!"f", c!"", c!"", c!"f"⟩,
  ⟨348, c!"g", c!"", c!"", c!"g"⟩,
  ⟨349, c!"h", c!"", c!"", c!"(h|x[romanian]|H[french+portuguese+italian+spanish])"⟩,
  ⟨350, c!"i", c!"", c!"", c!"I"⟩,
  ⟨351, c!"j", c!"", c!"", c!"(j|x[spanish]|Z[french+romanian+turkish+portuguese])"⟩,
  ⟨352, c!"k", c!"", c!"", c!"k"⟩,
  ⟨353, c!"l", c!"", c!"", c!"l"⟩,
  ⟨354, c!"m", c!"", c!"", c!"m"⟩,
  ⟨355, c!"n", c!"", c!"", c!"n"⟩,
  ⟨356, c!"o", c!"", c!"", c!"O"⟩,
  ⟨357, c!"p", c!"", c!"", c!"p"⟩,
  ⟨358, c!"q", c!"", c!"", c!"k"⟩,
  ⟨359, c!"r", c!"", c!"", c!"r"⟩,
  ⟨360, c!"s", c!"", c!"", c!"(s|S[portuguese])"⟩,
  ⟨361, c!"t", c!"", c!"", c!"t"⟩,
  ⟨362, c!"u", c!"", c!"", c!"U"⟩,
  ⟨363, c!"v", c!"", c!"", c!"V"⟩,
  ⟨364, c!"w", c!"", c!"", c!"(v|w[english+dutch])"⟩,
  ⟨365, c!"x", c!"", c!"", c!"(ks|gz|S[portuguese+spanish])"⟩,
  ⟨366, c!"y", c!"", c!"", c!"i"⟩,
  ⟨367, c!"z", c!"", c!"", c!"(z|ts[german]|dz[italian]|ts[italian]|s[spanish])"⟩]

/-- The rules of `rules/bm/gen_rules_any.txt`. -/
def genRulesAnyLines : List EmbeddedLine :=
  genRulesAnyLines1 ++ genRulesAnyLines2 ++ genRulesAnyLines3 ++ genRulesAnyLines4 ++ genRulesAnyLines5

/-- The rules of `rules/bm/sep_approx_any.txt`. -/
def sepApproxAnyLines : List EmbeddedLine := [
  ⟨20, c!"E", c!"", c!"", c!""⟩]

/-- Rules of `rules/bm/sep_approx_common.txt`, part 1. -/
def sepApproxCommonLines1 : List EmbeddedLine := [
  ⟨20, c!"bens", c!"^", c!"", c!"(binz|s)"⟩,
  ⟨21, c!"benS", c!"^", c!"", c!"(binz|s)"⟩,
  ⟨22, c!"ben", c!"^", c!"", c!"(bin|)"⟩,
  ⟨24, c!"abens", c!"^", c!"", c!"(abinz|binz|s)"⟩,
  ⟨25, c!"abenS", c!"^", c!"", c!"(abinz|binz|s)"⟩,
  ⟨26, c!"aben", c!"^", c!"", c!"(abin|bin|)"⟩,
  ⟨28, c!"els", c!"^", c!"", c!"(ilz|alz|s)"⟩,
  ⟨29, c!"elS", c!"^", c!"", c!"(ilz|alz|s)"⟩,
  ⟨30, c!"el", c!"^", c!"", c!"(il|al|)"⟩,
  ⟨31, c!"als", c!"^", c!"", c!"(alz|s)"⟩,
  ⟨32, c!"alS", c!"^", c!"", c!"(alz|s)"⟩,
  ⟨33, c!"al", c!"^", c!"", c!"(al|)"⟩,
  ⟨37, c!"del", c!"^", c!"", c!"(dil|)"⟩,
  ⟨38, c!"dela", c!"^", c!"", c!"(dila|)"⟩,
  ⟨40, c!"da", c!"^", c!"", c!"(da|)"⟩,
  ⟨41, c!"de", c!"^", c!"", c!"(di|)"⟩,
  ⟨46, c!"oa", c!"", c!"", c!"(va|a|D)"⟩,
  ⟨47, c!"oe", c!"", c!"", c!"(vi|D)"⟩,
  ⟨48, c!"ae", c!"", c!"", c!"D"⟩,
  ⟨53, c!"n", c!"", c!"[bp]", c!"m"⟩,
  ⟨55, c!"h", c!"", c!"", c!"(|h|f)"⟩,
  ⟨56, c!"x", c!"", c!"", c!"h"⟩,
  ⟨59, c!"aja", c!"^", c!"", c!"(Da|ia)"⟩,
  ⟨60, c!"aje", c!"^", c!"", c!"(Di|Da|i|ia)"⟩,
  ⟨61, c!"aji", c!"^", c!"", c!"(Di|i)"⟩,
  ⟨62, c!"ajo", c!"^", c!"", c!"(Du|Da|iu|ia)"⟩,
  ⟨63, c!"aju", c!"^", c!"", c!"(Du|iu)"⟩,
  ⟨65, c!"aj", c!"", c!"", c!"D"⟩,
  ⟨66, c!"ej", c!"", c!"", c!"D"⟩,
  ⟨67, c!"oj", c!"", c!"", c!"D"⟩,
  ⟨68, c!"uj", c!"", c!"", c!"D"⟩,
  ⟨69, c!"au", c!"", c!"", c!"D"⟩,
  ⟨70, c!"eu", c!"", c!"", c!"D"⟩,
  ⟨71, c!"ou", c!"", c!"", c!"D"⟩,
  ⟨73, c!"a", c!"^", c!"", c!"(a|)"⟩,
  ⟨75, c!"ja", c!"^", c!"", c!"ia"⟩,
  ⟨76, c!"je", c!"^", c!"", c!"i"⟩,
  ⟨77, c!"jo", c!"^", c!"", c!"(iu|ia)"⟩,
  ⟨78, c!"ju", c!"^", c!"", c!"iu"⟩,
  ⟨80, c!"ja", c!"", c!"", c!"a"⟩,
  ⟨81, c!"je", c!"", c!"", c!"i"⟩,
  ⟨82, c!"ji", c!"", c!"", c!"i"⟩,
  ⟨83, c!"jo", c!"", c!"", c!"u"⟩,
  ⟨84, c!"ju", c!"", c!"", c!"u"⟩,
  ⟨86, c!"j", c!"", c!"", c!"i"⟩,
  ⟨89, c!"s", c!"", c!"[rmnl]", c!"z"⟩,
  ⟨90, c!"S", c!"", c!"[rmnl]", c!"z"⟩,
  ⟨91, c!"s", c!"[rmnl]", c!"", c!"z"⟩,
  ⟨92, c!"S", c!"[rmnl]", c!"", c!"z"⟩,
  ⟨94, c!"dS", c!"", c!"$", c!"S"⟩,
  ⟨95, c!"dZ", c!"", c!"$", c!"S"⟩,
  ⟨96, c!"Z", c!"", c!"$", c!"S"⟩,
  ⟨97, c!"S", c!"", c!"$", c!"(S|s)"⟩,
  ⟨98, c!"z", c!"", c!"$", c!"(S|s)"⟩,
  ⟨100, c!"S", c!"", c!"", c!"s"⟩,
  ⟨101, c!"dZ", c!"", c!"", c!"z"⟩,
  ⟨102, c!"Z", c!"", c!"", c!"z"⟩,
  ⟨104, c!"i", c!"", c!"$", c!"(i|)"⟩,
  ⟨105, c!"e", c!"", c!"", c!"i"⟩,
  ⟨107, c!"o", c!"", c!"$", c!"(a|u)"⟩]

/-- Rules of `rules/bm/sep_approx_common.txt`, part 2. -/
def sepApproxCommonLines2 : List EmbeddedLine := [
  ⟨108, c!"o", c!"", c!"", c!"u"⟩,
  ⟨111, c!"B", c!"", c!"", c!"b"⟩,
  ⟨112, c!"V", c!"", c!"", c!"v"⟩,
  ⟨115, c!"p", c!"^", c!"", c!"b"⟩]

/-- The rules of `rules/bm/sep_approx_common.txt`. -/
def sepApproxCommonLines : List EmbeddedLine :=
  sepApproxCommonLines1 ++ sepApproxCommonLines2

/-- The rules of `rules/bm/sep_exact_any.txt`. -/
def sepExactAnyLines : List EmbeddedLine := [
  ⟨18, c!"E", c!"", c!"", c!"e"⟩]

/-- The rules of `rules/bm/sep_exact_approx_common.txt`. -/
def sepExactApproxCommonLines : List EmbeddedLine := [
  ⟨20, c!"h", c!"", c!"$", c!""⟩,
  ⟨23, c!"b", c!"", c!"[fktSs]", c!"p"⟩,
  ⟨24, c!"b", c!"", c!"p", c!""⟩,
  ⟨25, c!"b", c!"", c!"$", c!"p"⟩,
  ⟨26, c!"p", c!"", c!"[vgdZz]", c!"b"⟩,
  ⟨27, c!"p", c!"", c!"b", c!""⟩,
  ⟨29, c!"v", c!"", c!"[pktSs]", c!"f"⟩,
  ⟨30, c!"v", c!"", c!"f", c!""⟩,
  ⟨31, c!"v", c!"", c!"$", c!"f"⟩,
  ⟨32, c!"f", c!"", c!"[vbgdZz]", c!"v"⟩,
  ⟨33, c!"f", c!"", c!"v", c!""⟩,
  ⟨35, c!"g", c!"", c!"[pftSs]", c!"k"⟩,
  ⟨36, c!"g", c!"", c!"k", c!""⟩,
  ⟨37, c!"g", c!"", c!"$", c!"k"⟩,
  ⟨38, c!"k", c!"", c!"[vbdZz]", c!"g"⟩,
  ⟨39, c!"k", c!"", c!"g", c!""⟩,
  ⟨41, c!"d", c!"", c!"[pfkSs]", c!"t"⟩,
  ⟨42, c!"d", c!"", c!"t", c!""⟩,
  ⟨43, c!"d", c!"", c!"$", c!"t"⟩,
  ⟨44, c!"t", c!"", c!"[vbgZz]", c!"d"⟩,
  ⟨45, c!"t", c!"", c!"d", c!""⟩,
  ⟨47, c!"s", c!"", c!"dZ", c!""⟩,
  ⟨48, c!"s", c!"", c!"tS", c!""⟩,
  ⟨50, c!"z", c!"", c!"[pfkSt]", c!"s"⟩,
  ⟨51, c!"z", c!"", c!"[sSzZ]", c!""⟩,
  ⟨52, c!"s", c!"", c!"[sSzZ]", c!""⟩,
  ⟨53, c!"Z", c!"", c!"[sSzZ]", c!""⟩,
  ⟨54, c!"S", c!"", c!"[sSzZ]", c!""⟩,
  ⟨57, c!"nm", c!"", c!"", c!"m"⟩,
  ⟨60, c!"ji", c!"^", c!"", c!"i"⟩,
  ⟨62, c!"a", c!"", c!"a", c!""⟩,
  ⟨63, c!"b", c!"", c!"b", c!""⟩,
  ⟨64, c!"d", c!"", c!"d", c!""⟩,
  ⟨65, c!"e", c!"", c!"e", c!""⟩,
  ⟨66, c!"f", c!"", c!"f", c!""⟩,
  ⟨67, c!"g", c!"", c!"g", c!""⟩,
  ⟨68, c!"i", c!"", c!"i", c!""⟩,
  ⟨69, c!"k", c!"", c!"k", c!""⟩,
  ⟨70, c!"l", c!"", c!"l", c!""⟩,
  ⟨71, c!"m", c!"", c!"m", c!""⟩,
  ⟨72, c!"n", c!"", c!"n", c!""⟩,
  ⟨73, c!"o", c!"", c!"o", c!""⟩,
  ⟨74, c!"p", c!"", c!"p", c!""⟩,
  ⟨75, c!"r", c!"", c!"r", c!""⟩,
  ⟨76, c!"t", c!"", c!"t", c!""⟩,
  ⟨77, c!"u", c!"", c!"u", c!""⟩,
  ⟨78, c!"v", c!"", c!"v", c!""⟩,
  ⟨79, c!"z", c!"", c!"z", c!""⟩]

/-- The rules of `rules/bm/sep_exact_common.txt`. -/
def sepExactCommonLines : List EmbeddedLine := [
  ⟨20, c!"h", c!"", c!"", c!""⟩,
  ⟨24, c!"s", c!"[^t]", c!"[bgZd]", c!"z"⟩,
  ⟨25, c!"Z", c!"", c!"[pfkst]", c!"S"⟩,
  ⟨26, c!"Z", c!"", c!"$", c!"S"⟩,
  ⟨27, c!"S", c!"", c!"[bgzd]", c!"Z"⟩,
  ⟨28, c!"z", c!"", c!"$", c!"s"⟩,
  ⟨31, c!"B", c!"", c!"", c!"b"⟩,
  ⟨32, c!"V", c!"", c!"", c!"v"⟩]

/-- Rules of `rules/bm/sep_rules_any.txt`, part 1. -/
def sepRulesAnyLines1 : List EmbeddedLine := [
  ⟨21, c!"ph", c!"", c!"", c!"f"⟩,
  ⟨22, c!"sh", c!"", c!"", c!"S"⟩,
  ⟨23, c!"kh", c!"", c!"", c!"x"⟩,
  ⟨25, c!"gli", c!"", c!"", c!"(gli|l[italian])"⟩,
  ⟨26, c!"gni", c!"", c!"", c!"(gni|ni[italian+french])"⟩,
  ⟨27, c!"gn", c!"", c!"[aeou]", c!"(n[italian+french]|nj[italian+french]|gn)"⟩,
  ⟨28, c!"gh", c!"", c!"", c!"g"⟩,
  ⟨29, c!"dh", c!"", c!"", c!"d"⟩,
  ⟨30, c!"bh", c!"", c!"", c!"b"⟩,
  ⟨31, c!"th", c!"", c!"", c!"t"⟩,
  ⟨32, c!"lh", c!"", c!"", c!"l"⟩,
  ⟨33, c!"nh", c!"", c!"", c!"nj"⟩,
  ⟨35, c!"ig", c!"[aeiou]", c!"", c!"(ig|tS[spanish])"⟩,
  ⟨36, c!"ix", c!"[aeiou]", c!"", c!"S"⟩,
  ⟨37, c!"tx", c!"", c!"", c!"tS"⟩,
  ⟨38, c!"tj", c!"", c!"$", c!"tS"⟩,
  ⟨39, c!"tj", c!"", c!"", c!"dZ"⟩,
  ⟨40, c!"tg", c!"", c!"", c!"(tg|dZ[spanish])"⟩,
  ⟨42, c!"gi", c!"", c!"[aeou]", c!"dZ"⟩,
  ⟨43, c!"g", c!"", c!"y", c!"Z"⟩,
  ⟨44, c!"gg", c!"", c!"[ei]", c!"(gZ[portuguese+french]|dZ[italian+spanish]|x[spanish])"⟩,
  ⟨45, c!"g", c!"", c!"[ei]", c!"(Z[portuguese+french]|dZ[italian+spanish]|x[spanish])"⟩,
  ⟨47, c!"guy", c!"", c!"", c!"gi"⟩,
  ⟨48, c!"gue", c!"", c!"$", c!"(k[french]|ge)"⟩,
  ⟨49, c!"gu", c!"", c!"[ei]", c!"(g|gv)"⟩,
  ⟨50, c!"gu", c!"", c!"[ao]", c!"gv"⟩,
  ⟨52, c!"ñ", c!"", c!"", c!"(n|nj)"⟩,
  ⟨53, c!"ny", c!"", c!"", c!"nj"⟩,
  ⟨55, c!"sc", c!"", c!"[ei]", c!"(s|S[italian])"⟩,
  ⟨56, c!"sç", c!"", c!"[aeiou]", c!"s"⟩,
  ⟨57, c!"ss", c!"", c!"", c!"s"⟩,
  ⟨58, c!"ç", c!"", c!"", c!"s"⟩,
  ⟨60, c!"ch", c!"", c!"[ei]", c!"(k[italian]|S[portuguese+french]|tS[spanish]|dZ[spanish])"⟩,
  ⟨61, c!"ch", c!"", c!"", c!"(S|tS[spanish]|dZ[spanish])"⟩,
  ⟨63, c!"ci", c!"", c!"[aeou]", c!"(tS[italian]|si)"⟩,
  ⟨64, c!"cc", c!"", c!"[eiyéèê]", c!"(tS[italian]|ks[portuguese+french+spanish])"⟩,
  ⟨65, c!"c", c!"", c!"[eiyéèê]", c!"(tS[italian]|s[portuguese+french+spanish])"⟩,
  ⟨68, c!"s", c!"^", c!"", c!"s"⟩,
  ⟨69, c!"s", c!"[aáuiíoóeéêy]", c!"[aáuiíoóeéêy]", c!"(s[spanish]|z[portuguese+french+italian])"⟩,
  ⟨70, c!"s", c!"", c!"[dglmnrv]", c!"(z|Z[portuguese])"⟩,
  ⟨72, c!"z", c!"", c!"$", c!"(s|ts[italian]|S[portuguese])"⟩,
  ⟨73, c!"z", c!"", c!"[bdgv]", c!"(z|dz[italian]|Z[portuguese])"⟩,
  ⟨74, c!"z", c!"", c!"[ptckf]", c!"(s|ts[italian]|S[portuguese])"⟩,
  ⟨75, c!"z", c!"", c!"", c!"(z|dz[italian]|ts[italian]|s[spanish])"⟩,
  ⟨77, c!"que", c!"", c!"$", c!"(k[french]|ke)"⟩,
  ⟨78, c!"qu", c!"", c!"[eiu]", c!"k"⟩,
  ⟨79, c!"qu", c!"", c!"[ao]", c!"(kv|k)"⟩,
  ⟨81, c!"ex", c!"", c!"[aáuiíoóeéêy]", c!"(ez[portuguese]|eS[portuguese]|eks|egz)"⟩,
  ⟨82, c!"ex", c!"", c!"[cs]", c!"(e[portuguese]|ek)"⟩,
  ⟨84, c!"m", c!"", c!"[cdglnrst]", c!"(m|n[portuguese])"⟩,
  ⟨85, c!"m", c!"", c!"[bfpv]", c!"(m|n[portuguese+spanish])"⟩,
  ⟨86, c!"m", c!"", c!"$", c!"(m|n[portuguese])"⟩,
  ⟨88, c!"b", c!"^", c!"", c!"(b|V[spanish])"⟩,
  ⟨89, c!"v", c!"^", c!"", c!"(v|B[spanish])"⟩,
  ⟨92, c!"eau", c!"", c!"", c!"o"⟩,
  ⟨94, c!"ouh", c!"", c!"[aioe]", c!"(v[french]|uh)"⟩,
  ⟨95, c!"uh", c!"", c!"[aioe]", c!"(v|uh)"⟩,
  ⟨96, c!"ou", c!"", c!"[aioe]", c!"v"⟩,
  ⟨97, c!"uo", c!"", c!"", c!"(vo|o)"⟩,
  ⟨98, c!"u", c!"", c!"[aie]", c!"v"⟩]

/-- Rules of `rules/bm/sep_rules_any.txt`, part 2. -/
def sepRulesAnyLines2 : List EmbeddedLine := [
  ⟨100, c!"i", c!"[aáuoóeéê]", c!"", c!"j"⟩,
  ⟨101, c!"i", c!"", c!"[aeou]", c!"j"⟩,
  ⟨102, c!"y", c!"[aáuiíoóeéê]", c!"", c!"j"⟩,
  ⟨103, c!"y", c!"", c!"[aeiíou]", c!"j"⟩,
  ⟨104, c!"e", c!"", c!"$", c!"(e|E[french])"⟩,
  ⟨106, c!"ão", c!"", c!"", c!"(au|an)"⟩,
  ⟨107, c!"ãe", c!"", c!"", c!"(aj|an)"⟩,
  ⟨108, c!"ãi", c!"", c!"", c!"(aj|an)"⟩,
  ⟨109, c!"õe", c!"", c!"", c!"(oj|on)"⟩,
  ⟨110, c!"où", c!"", c!"", c!"u"⟩,
  ⟨111, c!"ou", c!"", c!"", c!"(ou|u[french])"⟩,
  ⟨113, c!"â", c!"", c!"", c!"a"⟩,
  ⟨114, c!"à", c!"", c!"", c!"a"⟩,
  ⟨115, c!"á", c!"", c!"", c!"a"⟩,
  ⟨116, c!"ã", c!"", c!"", c!"(a|an)"⟩,
  ⟨117, c!"é", c!"", c!"", c!"e"⟩,
  ⟨118, c!"ê", c!"", c!"", c!"e"⟩,
  ⟨119, c!"è", c!"", c!"", c!"e"⟩,
  ⟨120, c!"í", c!"", c!"", c!"i"⟩,
  ⟨121, c!"î", c!"", c!"", c!"i"⟩,
  ⟨122, c!"ô", c!"", c!"", c!"o"⟩,
  ⟨123, c!"ó", c!"", c!"", c!"o"⟩,
  ⟨124, c!"õ", c!"", c!"", c!"(o|on)"⟩,
  ⟨125, c!"ò", c!"", c!"", c!"o"⟩,
  ⟨126, c!"ú", c!"", c!"", c!"u"⟩,
  ⟨127, c!"ü", c!"", c!"", c!"u"⟩,
  ⟨130, c!"a", c!"", c!"", c!"a"⟩,
  ⟨131, c!"b", c!"", c!"", c!"(b|v[spanish])"⟩,
  ⟨132, c!"c", c!"", c!"", c!"k"⟩,
  ⟨133, c!"d", c!"", c!"", c!"d"⟩,
  ⟨134, c!"e", c!"", c!"", c!"e"⟩,
  ⟨135, c!"f", c!"", c!"", c!"f"⟩,
  ⟨136, c!"g", c!"", c!"", c!"g"⟩,
  ⟨137, c!"h", c!"", c!"", c!"h"⟩,
  ⟨138, c!"i", c!"", c!"", c!"i"⟩,
  ⟨139, c!"j", c!"", c!"", c!"(x[spanish]|Z)"⟩,
  ⟨140, c!"k", c!"", c!"", c!"k"⟩,
  ⟨141, c!"l", c!"", c!"", c!"l"⟩,
  ⟨142, c!"m", c!"", c!"", c!"m"⟩,
  ⟨143, c!"n", c!"", c!"", c!"n"⟩,
  ⟨144, c!"o", c!"", c!"", c!"o"⟩,
  ⟨145, c!"p", c!"", c!"", c!"p"⟩,
  ⟨146, c!"q", c!"", c!"", c!"k"⟩,
  ⟨147, c!"r", c!"", c!"", c!"r"⟩,
  ⟨148, c!"s", c!"", c!"", c!"(s|S[portuguese])"⟩,
  ⟨149, c!"t", c!"", c!"", c!"t"⟩,
  ⟨150, c!"u", c!"", c!"", c!"u"⟩,
  ⟨151, c!"v", c!"", c!"", c!"(v|b[spanish])"⟩,
  ⟨152, c!"w", c!"", c!"", c!"v"⟩,
  ⟨153, c!"x", c!"", c!"", c!"(ks|gz|S[portuguese+spanish])"⟩,
  ⟨154, c!"y", c!"", c!"", c!"i"⟩,
  ⟨155, c!"z", c!"", c!"", c!"z"⟩]

/-- The rules of `rules/bm/sep_rules_any.txt`. -/
def sepRulesAnyLines : List EmbeddedLine :=
  sepRulesAnyLines1 ++ sepRulesAnyLines2

/-- The rules of a file, with its name. -/
def fileLines (file : Str) (lines : List EmbeddedLine) : List (Str × EmbeddedLine) := lines.map fun l => (file, l)

/-- The lines that the rules of a name type, a rule type and a language (or the common rules) come from, with the name of
the file. The common rules start with those of the file that they include. -/
def embeddedLines (nt : NameType) (rt : PrivateRuleType) (x : Str) : List (Str × EmbeddedLine) :=
  if x = c!"any" then
    match nt, rt with
    | .ashkenazi, .approx => fileLines c!"ash_approx_any" ashApproxAnyLines
    | .ashkenazi, .exact => fileLines c!"ash_exact_any" ashExactAnyLines
    | .ashkenazi, .rules => fileLines c!"ash_rules_any" ashRulesAnyLines
    | .generic, .approx => fileLines c!"gen_approx_any" genApproxAnyLines
    | .generic, .exact => fileLines c!"gen_exact_any" genExactAnyLines
    | .generic, .rules => fileLines c!"gen_rules_any" genRulesAnyLines
    | .sephardic, .approx => fileLines c!"sep_approx_any" sepApproxAnyLines
    | .sephardic, .exact => fileLines c!"sep_exact_any" sepExactAnyLines
    | .sephardic, .rules => fileLines c!"sep_rules_any" sepRulesAnyLines
  else if x = c!"common" then
    match nt, rt with
    | .ashkenazi, .approx => fileLines c!"ash_exact_approx_common" ashExactApproxCommonLines ++ fileLines c!"ash_approx_common" ashApproxCommonLines
    | .ashkenazi, .exact => fileLines c!"ash_exact_approx_common" ashExactApproxCommonLines ++ fileLines c!"ash_exact_common" ashExactCommonLines
    | .generic, .approx => fileLines c!"gen_exact_approx_common" genExactApproxCommonLines ++ fileLines c!"gen_approx_common" genApproxCommonLines
    | .generic, .exact => fileLines c!"gen_exact_approx_common" genExactApproxCommonLines ++ fileLines c!"gen_exact_common" genExactCommonLines
    | .sephardic, .approx => fileLines c!"sep_exact_approx_common" sepExactApproxCommonLines ++ fileLines c!"sep_approx_common" sepApproxCommonLines
    | .sephardic, .exact => fileLines c!"sep_exact_approx_common" sepExactApproxCommonLines ++ fileLines c!"sep_exact_common" sepExactCommonLines
    | _, .rules => []
  else []

/-- The names of the 18 files. -/
def embeddedFileNames : List Str := [c!"ash_approx_any", c!"ash_approx_common", c!"ash_exact_any", c!"ash_exact_approx_common", c!"ash_exact_common", c!"ash_rules_any", c!"gen_approx_any", c!"gen_approx_common", c!"gen_exact_any", c!"gen_exact_approx_common", c!"gen_exact_common", c!"gen_rules_any", c!"sep_approx_any", c!"sep_approx_common", c!"sep_exact_any", c!"sep_exact_approx_common", c!"sep_exact_common", c!"sep_rules_any"]

/-- Rules are what lines of files mean, one by one. -/
inductive ReadsAll (R : RegexEngine) : List (Str × EmbeddedLine) → List Rule → Prop
  | nil : ReadsAll R [] []
  | cons {file : Str} {l : EmbeddedLine} {r : Rule} {ls : List (Str × EmbeddedLine)} {rs : List Rule} :
      IsRule R file l.line l.pattern l.left l.right l.phonemes r → ReadsAll R ls rs →
      ReadsAll R ((file, l) :: ls) (r :: rs)

end Verif.Spec
